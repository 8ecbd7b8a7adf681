import Verif.Lemmas.Moved

/-! # View factor matrices for slightly different coordinates -/

namespace PVF

section
variable {D w c σ τ : ℝ} (hτ : 0 ≤ τ) (hT : 2 * TOL ≤ w) (hσ : 0 ≤ σ) (hc : σ < c) (hD : w ≤ D)
include hτ hT hσ hc hD

theorem rowMove_le : 0 ≤ rowMove D w c σ τ ∧ rowMove D w c σ τ ≤ entryMove D w c σ τ := by
  have T := TOL_pos
  have hw : 0 < w := by linarith
  have hD0 : 0 < D := by linarith
  have hc0 : 0 < c := by linarith
  have q : 1 ≤ D / w := by rw [le_div_iff₀ hw]; linarith
  have r0 : 0 ≤ rowMove D w c σ τ := by unfold rowMove; positivity
  refine ⟨r0, ?_⟩
  have e : entryMove D w c σ τ = rowMove D w c σ τ * (D / w) + 16 * D ^ 2 * τ / w ^ 3 := by
    unfold entryMove rowMove
    field_simp
    ring
  have : 0 ≤ 16 * D ^ 2 * τ / w ^ 3 := by positivity
  rw [e]
  nlinarith

/-- Quotients whose terms change a little. -/
theorem quot_move {n n' l l' E B : ℝ} (hn : |n' - n| ≤ E) (hB : |n| ≤ B) (hl : w ≤ l) (hl' : w ≤ l')
    (hd : |l' - l| ≤ 2 * τ) : |n' / (2 * l') - n / (2 * l)| ≤ E / (2 * w) + B * τ / w ^ 2 := by
  have T := TOL_pos
  have hw : 0 < w := by linarith
  have hl0 : 0 < l := by linarith
  have hl0' : 0 < l' := by linarith
  have hE : 0 ≤ E := (abs_nonneg _).trans hn
  have hB0 : 0 ≤ B := (abs_nonneg _).trans hB
  have e : n' / (2 * l') - n / (2 * l) = (n' - n) / (2 * l') + n * (l - l') / (2 * (l * l')) := by
    field_simp
    ring
  rw [e]
  refine (abs_add_le _ _).trans (add_le_add ?_ ?_)
  · rw [abs_div, abs_of_pos (show 0 < 2 * l' by linarith)]
    exact div_le_div₀ hE hn (by linarith) (by linarith)
  · rw [abs_div, abs_mul, abs_of_pos (show 0 < 2 * (l * l') by positivity)]
    have h1 : |n| * |l - l'| ≤ B * (2 * τ) := by
      rw [abs_sub_comm]; exact mul_le_mul hB hd (abs_nonneg _) hB0
    have h2 : 2 * w ^ 2 ≤ 2 * (l * l') := by nlinarith
    calc _ ≤ B * (2 * τ) / (2 * w ^ 2) := div_le_div₀ (by positivity) h1 (by positivity) h2
      _ = _ := by field_simp

/-- View factors between two lines. -/
theorem surfSurf_move {a b a' b' : Line} (ha : 2 * a.length ≤ TOL ∨ w ≤ a.length)
    (ha' : 2 * a'.length ≤ TOL ∨ w ≤ a'.length) (hτw : 2 * τ + TOL < w)
    (ea : distPt a.b1 a'.b1 ≤ τ ∧ distPt a.b2 a'.b2 ≤ τ)
    (eb : distPt b.b1 b'.b1 ≤ τ ∧ distPt b.b2 b'.b2 ≤ τ)
    (hd : distPt a.b1 b.b1 ≤ D ∧ distPt a.b2 b.b2 ≤ D ∧ distPt a.b1 b.b2 ≤ D ∧
      distPt a.b2 b.b1 ≤ D) :
    |vfSurfSurf a' b' a'.length - vfSurfSurf a b a.length| ≤ rowMove D w c σ τ ∧
      |vfSurfSurf a b a.length| ≤ 4 * D / w := by
  have T := TOL_pos
  have hw : 0 < w := by linarith
  have hD0 : 0 < D := by linarith
  have hc0 : 0 < c := by linarith
  have r0 := (rowMove_le hτ hT hσ hc hD).1
  have hl : |a'.length - a.length| ≤ 2 * τ := by
    have := distPt_lip a.b1 a.b2 a'.b1 a'.b2
    have e : a'.length - a.length = distPt a'.b1 a'.b2 - distPt a.b1 a.b2 := rfl
    rw [e]; linarith [ea.1, ea.2]
  have hl' := abs_le.1 hl
  rcases ha with ha | ha
  · have ha0 : 2 * a'.length ≤ TOL := by
      rcases ha' with h | h
      · exact h
      · linarith [hl'.2]
    have e1 : vfSurfSurf a' b' a'.length = 0 := by
      unfold vfSurfSurf
      dsimp only
      rw [if_neg (by linarith)]
    have e2 : vfSurfSurf a b a.length = 0 := by
      unfold vfSurfSurf
      dsimp only
      rw [if_neg (by linarith)]
    rw [e1, e2, sub_self, abs_zero]
    exact ⟨r0, by positivity⟩
  · have ha1 : w ≤ a'.length := by
      rcases ha' with h | h
      · linarith [hl'.1]
      · exact h
    obtain ⟨d1, d2, d3, d4⟩ := hd
    have p1 := distPt_nonneg a.b1 b.b1
    have p2 := distPt_nonneg a.b2 b.b2
    have p3 := distPt_nonneg a.b1 b.b2
    have p4 := distPt_nonneg a.b2 b.b1
    unfold vfSurfSurf
    simp only [if_pos (show a'.length > TOL by linarith), if_pos (show a.length > TOL by linarith)]
    have hB : |(|distPt a.b1 b.b2 + distPt a.b2 b.b1 - (distPt a.b1 b.b1 + distPt a.b2 b.b2)|)|
        ≤ 4 * D := by
      rw [abs_abs, abs_le]; constructor <;> linarith
    refine ⟨(quot_move hτ hT hσ hc hD (E := 8 * τ) (B := 4 * D) ?_ hB ha ha1 hl).trans ?_, ?_⟩
    · refine (abs_abs_sub_abs_le_abs_sub _ _).trans ?_
      have q1 := abs_le.1 (distPt_lip a.b1 b.b1 a'.b1 b'.b1)
      have q2 := abs_le.1 (distPt_lip a.b2 b.b2 a'.b2 b'.b2)
      have q3 := abs_le.1 (distPt_lip a.b1 b.b2 a'.b1 b'.b2)
      have q4 := abs_le.1 (distPt_lip a.b2 b.b1 a'.b2 b'.b1)
      rw [abs_le]
      constructor <;> linarith [q1.1, q1.2, q2.1, q2.2, q3.1, q3.2, q4.1, q4.2, ea.1, ea.2, eb.1,
        eb.2]
    · unfold rowMove
      have s1 : 8 * τ / (2 * w) ≤ 4 * D * τ / w ^ 2 := by
        rw [div_le_div_iff₀ (by linarith) (by positivity)]
        nlinarith [mul_nonneg (mul_nonneg hτ hw.le) (sub_nonneg.2 hD)]
      have s2 : 16 * D * τ / w ^ 2 = 4 * D * τ / w ^ 2 + 4 * D * τ / w ^ 2 + 8 * D * τ / w ^ 2 := by
        ring
      have s3 : 0 ≤ 8 * D * τ / w ^ 2 := by positivity
      have s4 : 0 ≤ 4 * σ * D / (c * w) := by positivity
      linarith
    · rw [abs_div, abs_of_pos (show 0 < 2 * a.length by linarith)]
      calc _ ≤ 4 * D / (2 * a.length) := div_le_div_of_nonneg_right hB (by linarith)
        _ ≤ 4 * D / w := div_le_div_of_nonneg_left (by linarith) hw (by linarith)

/-- View factors past an obstruction. -/
theorem hottelGnd_move {a a' : Line} {H L G1 G2 O H' L' G1' G2' O' : Pt} {s : Bool}
    (ha : 2 * a.length ≤ TOL ∨ w ≤ a.length)
    (ha' : 2 * a'.length ≤ TOL ∨ w ≤ a'.length) (hτw : 2 * τ + TOL < w)
    (ea : distPt a.b1 a'.b1 ≤ τ ∧ distPt a.b2 a'.b2 ≤ τ)
    (eH : distPt H H' ≤ τ) (eL : distPt L L' ≤ τ) (e1 : distPt G1 G1' ≤ τ) (e2 : distPt G2 G2' ≤ τ)
    (eO : distPt O O' ≤ τ) (g1 : G1.y + c ≤ O.y) (g2 : G2.y + c ≤ O.y)
    (oh : O.y ≤ H.y + σ) (ol : O.y ≤ L.y + σ) (dg1 : distPt G1 O ≤ D) (dg2 : distPt G2 O ≤ D)
    (dh : distPt O H ≤ D) (dl : distPt O L ≤ D)
    (g1' : G1'.y + c ≤ O'.y) (g2' : G2'.y + c ≤ O'.y)
    (oh' : O'.y ≤ H'.y + σ) (ol' : O'.y ≤ L'.y + σ) (dg1' : distPt G1' O' ≤ D)
    (dg2' : distPt G2' O' ≤ D) :
    |vfHottelGnd H' L' G1' G2' O' a'.length s - vfHottelGnd H L G1 G2 O a.length s|
        ≤ rowMove D w c σ τ ∧
      |vfHottelGnd H L G1 G2 O a.length s| ≤ 4 * D / w := by
  have T := TOL_pos
  have hw : 0 < w := by linarith
  have hD0 : 0 < D := by linarith
  have hc0 : 0 < c := by linarith
  have r0 := (rowMove_le hτ hT hσ hc hD).1
  have hl : |a'.length - a.length| ≤ 2 * τ := by
    have := distPt_lip a.b1 a.b2 a'.b1 a'.b2
    have e : a'.length - a.length = distPt a'.b1 a'.b2 - distPt a.b1 a.b2 := rfl
    rw [e]; linarith [ea.1, ea.2]
  have hl' := abs_le.1 hl
  rcases ha with ha | ha
  · have ha0 : 2 * a'.length ≤ TOL := by
      rcases ha' with h | h
      · exact h
      · linarith [hl'.2]
    have e1 : vfHottelGnd H' L' G1' G2' O' a'.length s = 0 := by
      unfold vfHottelGnd
      dsimp only
      rw [if_neg (by linarith)]
    have e2 : vfHottelGnd H L G1 G2 O a.length s = 0 := by
      unfold vfHottelGnd
      dsimp only
      rw [if_neg (by linarith)]
    rw [e1, e2, sub_self, abs_zero]
    exact ⟨r0, by positivity⟩
  · have ha1 : w ≤ a'.length := by
      rcases ha' with h | h
      · linarith [hl'.1]
      · exact h
    have hx : 0 ≤ σ * D / c := by positivity
    have q1 := abs_le.1 ((hottelString_lip s hσ hc g1 oh dg1 g1' oh' dg1').trans
      (show _ ≤ 4 * τ + 2 * (σ * D / c) by linarith))
    have q2 := abs_le.1 ((hottelString_lip s hσ hc g1 ol dg1 g1' ol' dg1').trans
      (show _ ≤ 4 * τ + 2 * (σ * D / c) by linarith))
    have q3 := abs_le.1 ((hottelString_lip s hσ hc g2 oh dg2 g2' oh' dg2').trans
      (show _ ≤ 4 * τ + 2 * (σ * D / c) by linarith))
    have q4 := abs_le.1 ((hottelString_lip s hσ hc g2 ol dg2 g2' ol' dg2').trans
      (show _ ≤ 4 * τ + 2 * (σ * D / c) by linarith))
    obtain ⟨x1, y1⟩ := hottelString_bound H G1 O s
    obtain ⟨x2, y2⟩ := hottelString_bound L G1 O s
    obtain ⟨x3, y3⟩ := hottelString_bound H G2 O s
    obtain ⟨x4, y4⟩ := hottelString_bound L G2 O s
    have fin : (16 * τ + 8 * (σ * D / c)) / (2 * w) + 8 * D * τ / w ^ 2 ≤ rowMove D w c σ τ := by
      unfold rowMove
      have s1 : 8 * τ / w ≤ 8 * D * τ / w ^ 2 := by
        rw [div_le_div_iff₀ hw (by positivity)]
        nlinarith [mul_nonneg (mul_nonneg hτ hw.le) (sub_nonneg.2 hD)]
      have s2 : (16 * τ + 8 * (σ * D / c)) / (2 * w) = 8 * τ / w + 4 * σ * D / (c * w) := by
        field_simp
        ring
      have s3 : 16 * D * τ / w ^ 2 = 8 * D * τ / w ^ 2 + 8 * D * τ / w ^ 2 := by ring
      linarith
    have key : ∀ N N' : ℝ, |N| ≤ 8 * D → |N' - N| ≤ 16 * τ + 8 * (σ * D / c) →
        |N' / (2 * a'.length) - N / (2 * a.length)| ≤ rowMove D w c σ τ ∧
        |N / (2 * a.length)| ≤ 4 * D / w := by
      intro N N' h1 h2
      refine ⟨(quot_move hτ hT hσ hc hD h2 h1 ha ha1 hl).trans fin, ?_⟩
      rw [abs_div, abs_of_pos (show 0 < 2 * a.length by linarith),
        div_le_div_iff₀ (by linarith) hw]
      calc _ ≤ (8 * D) * w := mul_le_mul_of_nonneg_right h1 hw.le
        _ ≤ (8 * D) * a.length := mul_le_mul_of_nonneg_left ha (by linarith)
        _ = _ := by ring
    unfold vfHottelGnd
    simp only [if_pos (show a'.length > TOL by linarith), if_pos (show a.length > TOL by linarith)]
    cases s
    · simp only [Bool.false_eq_true, if_false]
      apply key
      · rw [abs_le]; constructor <;> linarith
      · rw [abs_le]; constructor <;> linarith [q1.1, q1.2, q2.1, q2.2, q3.1, q3.2, q4.1, q4.2]
    · simp only [if_true]
      apply key
      · rw [abs_le]; constructor <;> linarith
      · rw [abs_le]; constructor <;> linarith [q1.1, q1.2, q2.1, q2.2, q3.1, q3.2, q4.1, q4.2]

/-- View factors back to a row. -/
theorem recip_move {a b a' b' : Line} {x' x : ℝ} (hx : |x' - x| ≤ rowMove D w c σ τ)
    (hM : |x| ≤ 4 * D / w) (ha : a.length ≤ D) (ha' : a'.length ≤ D)
    (hb : 2 * b.length ≤ TOL ∨ w ≤ b.length) (hb' : 2 * b'.length ≤ TOL ∨ w ≤ b'.length) (hτw : 2 * τ + TOL < w)
    (ea : distPt a.b1 a'.b1 ≤ τ ∧ distPt a.b2 a'.b2 ≤ τ)
    (eb : distPt b.b1 b'.b1 ≤ τ ∧ distPt b.b2 b'.b2 ≤ τ) :
    |(if b'.length > TOL then x' * a'.length / b'.length else 0)
      - (if b.length > TOL then x * a.length / b.length else 0)| ≤ entryMove D w c σ τ := by
  have T := TOL_pos
  have hw : 0 < w := by linarith
  have hD0 : 0 < D := by linarith
  have hc0 : 0 < c := by linarith
  obtain ⟨r0, re⟩ := rowMove_le hτ hT hσ hc hD
  have hl : ∀ {a a' : Line}, distPt a.b1 a'.b1 ≤ τ ∧ distPt a.b2 a'.b2 ≤ τ →
      |a'.length - a.length| ≤ 2 * τ := by
    intro a a' ea
    have := distPt_lip a.b1 a.b2 a'.b1 a'.b2
    have e : a'.length - a.length = distPt a'.b1 a'.b2 - distPt a.b1 a.b2 := rfl
    rw [e]; linarith [ea.1, ea.2]
  have hla := hl ea
  have hlb := hl eb
  have hlb' := abs_le.1 hlb
  have pa : 0 ≤ a.length := Real.sqrt_nonneg _
  have pa' : 0 ≤ a'.length := Real.sqrt_nonneg _
  rcases hb with hb | hb
  · have hb0 : 2 * b'.length ≤ TOL := by
      rcases hb' with h | h
      · exact h
      · linarith [hlb'.2]
    rw [if_neg (by linarith), if_neg (by linarith), sub_self, abs_zero]
    linarith
  · have hb1 : w ≤ b'.length := by
      rcases hb' with h | h
      · linarith [hlb'.1]
      · exact h
    rw [if_pos (by linarith), if_pos (by linarith)]
    have e : x' * a'.length / b'.length - x * a.length / b.length
        = (x' - x) * (a'.length / b'.length)
          + x * 2 * (a'.length / (2 * b'.length) - a.length / (2 * b.length)) := by ring
    have q := quot_move hτ hT hσ hc hD (n := a.length) (n' := a'.length) hla
      (show |a.length| ≤ D by rw [abs_of_nonneg pa]; exact ha) hb hb1 hlb
    have h1 : |(x' - x) * (a'.length / b'.length)| ≤ rowMove D w c σ τ * (D / w) := by
      rw [abs_mul]
      refine mul_le_mul hx ?_ (abs_nonneg _) r0
      rw [abs_of_nonneg (div_nonneg pa' (by linarith))]
      exact div_le_div₀ hD0.le ha' hw hb1
    have h2 : |x * 2 * (a'.length / (2 * b'.length) - a.length / (2 * b.length))|
        ≤ 16 * D ^ 2 * τ / w ^ 3 := by
      rw [abs_mul, abs_mul, abs_of_pos (show (0 : ℝ) < 2 by norm_num)]
      have s1 : 2 * τ / (2 * w) + D * τ / w ^ 2 ≤ 2 * D * τ / w ^ 2 := by
        have : 2 * τ / (2 * w) ≤ D * τ / w ^ 2 := by
          rw [div_le_div_iff₀ (by linarith) (by positivity)]
          nlinarith [mul_nonneg (mul_nonneg hτ hw.le) (sub_nonneg.2 hD)]
        have e2 : 2 * D * τ / w ^ 2 = D * τ / w ^ 2 + D * τ / w ^ 2 := by ring
        linarith
      calc _ ≤ 4 * D / w * 2 * (2 * D * τ / w ^ 2) :=
            mul_le_mul (mul_le_mul_of_nonneg_right hM (by norm_num)) (q.trans s1) (abs_nonneg _)
              (by positivity)
        _ = _ := by field_simp; ring
    have e3 : entryMove D w c σ τ = rowMove D w c σ τ * (D / w) + 16 * D ^ 2 * τ / w ^ 3 := by
      unfold entryMove rowMove
      field_simp
      ring
    rw [e, e3]
    exact (abs_add_le _ _).trans (add_le_add h1 h2)

end

section
variable {p : ArrayParams} {g g' : StepGeom} {emp : SurfRef → Prop} {D w c σ τ : ℝ}
  (S : Scene p g emp D w c σ) (S' : Scene p g' emp D w c σ) (N : CoordsNear p g g' τ) (hτ : 0 ≤ τ)
  (hτw : 2 * τ + TOL < w)
include S S' N hτ hτw

theorem pvPv_move {a b : SurfRef} (ha : a ∈ surfaces p) (hb : b ∈ surfaces p) (hea : ¬ emp a)
    (heb : ¬ emp b) (fb : Bool) :
    |(vfPvPv (g'.coords a) (g'.coords b) (g'.rot.deg > 0) fb).1
        - (vfPvPv (g.coords a) (g.coords b) (g.rot.deg > 0) fb).1| ≤ entryMove D w c σ τ ∧
    |(vfPvPv (g'.coords a) (g'.coords b) (g'.rot.deg > 0) fb).2
        - (vfPvPv (g.coords a) (g.coords b) (g.rot.deg > 0) fb).2| ≤ entryMove D w c σ τ := by
  classical
  have T := TOL_pos
  have hw : 0 < w := by linarith [S.tol]
  have hD0 : 0 < D := by linarith [S.size]
  obtain ⟨r0, re⟩ := rowMove_le hτ S.tol S.slack S.clear S.size
  have sb := surfSurf_move hτ S.tol S.slack S.clear S.size (b := g.coords b) (b' := g'.coords b)
    (S.long a ha) (S'.long a ha) hτw (N.ends a ha) (N.ends b hb)
    ⟨S.near a ha b hb hea heb _ (Or.inl rfl) _ (Or.inl rfl),
      S.near a ha b hb hea heb _ (Or.inr rfl) _ (Or.inr rfl),
      S.near a ha b hb hea heb _ (Or.inl rfl) _ (Or.inr rfl),
      S.near a ha b hb hea heb _ (Or.inr rfl) _ (Or.inl rfl)⟩
  have main : |(vfPvPv (g'.coords a) (g'.coords b) (g'.rot.deg > 0) fb).1
        - (vfPvPv (g.coords a) (g.coords b) (g.rot.deg > 0) fb).1| ≤ rowMove D w c σ τ ∧
      |(vfPvPv (g.coords a) (g.coords b) (g.rot.deg > 0) fb).1| ≤ 4 * D / w := by
    have z : |(0 : ℝ) - 0| ≤ rowMove D w c σ τ ∧ |(0 : ℝ)| ≤ 4 * D / w := by
      rw [sub_self, abs_zero]; exact ⟨r0, by positivity⟩
    unfold vfPvPv
    dsimp only
    by_cases ht : g.rot.deg > 0
    · have ht' : g'.rot.deg > 0 := N.tilt.2 ht
      cases fb <;> simp only [Bool.false_eq_true, if_false, if_true, if_pos ht, if_pos ht'] <;>
        first | exact sb | exact z
    · have ht' : ¬ g'.rot.deg > 0 := fun h => ht (N.tilt.1 h)
      cases fb <;> simp only [Bool.false_eq_true, if_false, if_true, if_neg ht, if_neg ht'] <;>
        first | exact sb | exact z
  refine ⟨main.1.trans re, ?_⟩
  exact recip_move hτ S.tol S.slack S.clear S.size main.1 main.2 (Arith.length_le_of S ha hea)
    (Arith.length_le_of S' ha hea) (S.long b hb) (S'.long b hb) hτw (N.ends a ha) (N.ends b hb)

theorem pvGnd_move {r : ℕ} {s : RowSide} {k : ℕ} {sh : Bool}
    (ha : SurfRef.pv r s k sh ∈ surfaces p) {sh' : Bool} {e z : ℕ}
    (hb : SurfRef.gnd sh' e z ∈ surfaces p)
    (hea : ¬ emp (.pv r s k sh)) (heb : ¬ emp (.gnd sh' e z)) (bk lf : Bool) :
    |(vfPvGnd (g'.coords (.pv r s k sh)) r p.nRows (g'.rot.deg > 0) (fun k => (g'.row k).full)
        (g'.coords (.gnd sh' e z)) (g'.coords (.pv r s k sh)).length bk lf).1
      - (vfPvGnd (g.coords (.pv r s k sh)) r p.nRows (g.rot.deg > 0) (fun k => (g.row k).full)
        (g.coords (.gnd sh' e z)) (g.coords (.pv r s k sh)).length bk lf).1|
        ≤ entryMove D w c σ τ ∧
    |(vfPvGnd (g'.coords (.pv r s k sh)) r p.nRows (g'.rot.deg > 0) (fun k => (g'.row k).full)
        (g'.coords (.gnd sh' e z)) (g'.coords (.pv r s k sh)).length bk lf).2
      - (vfPvGnd (g.coords (.pv r s k sh)) r p.nRows (g.rot.deg > 0) (fun k => (g.row k).full)
        (g.coords (.gnd sh' e z)) (g.coords (.pv r s k sh)).length bk lf).2|
        ≤ entryMove D w c σ τ := by
  classical
  have T := TOL_pos
  have hw : 0 < w := by linarith [S.tol]
  have hD0 : 0 < D := by linarith [S.size]
  obtain ⟨r0, re⟩ := rowMove_le hτ S.tol S.slack S.clear S.size
  have hr : r < p.nRows := (mem_allRefs_pv.1 (mem_surfaces.1 ha)).1
  have nr := S.near _ ha _ hb hea heb
  have sb := surfSurf_move hτ S.tol S.slack S.clear S.size (b := g.coords (.gnd sh' e z))
    (b' := g'.coords (.gnd sh' e z)) (S.long _ ha) (S'.long _ ha) hτw (N.ends _ ha) (N.ends _ hb)
    ⟨nr _ (Or.inl rfl) _ (Or.inl rfl), nr _ (Or.inr rfl) _ (Or.inr rfl),
      nr _ (Or.inl rfl) _ (Or.inr rfl), nr _ (Or.inr rfl) _ (Or.inl rfl)⟩
  have hob : ∀ r' < p.nRows, _ := fun r' hr' =>
    hottelGnd_move hτ S.tol S.slack S.clear S.size (a := g.coords (.pv r s k sh))
      (a' := g'.coords (.pv r s k sh)) (s := lf)
      (H := (g.coords (.pv r s k sh)).highest) (L := (g.coords (.pv r s k sh)).lowest)
      (G1 := (g.coords (.gnd sh' e z)).b1) (G2 := (g.coords (.gnd sh' e z)).b2)
      (O := (g.row r').full.lowest)
      (H' := (g'.coords (.pv r s k sh)).highest) (L' := (g'.coords (.pv r s k sh)).lowest)
      (G1' := (g'.coords (.gnd sh' e z)).b1) (G2' := (g'.coords (.gnd sh' e z)).b2)
      (O' := (g'.row r').full.lowest) (S.long _ ha) (S'.long _ ha) hτw (N.ends _ ha)
      (N.high _ _ _ _ ha).1 (N.high _ _ _ _ ha).2 (N.ends _ hb).1 (N.ends _ hb).2 (N.edge r' hr')
      (S.above _ _ _ hb _ (Or.inl rfl) r' hr') (S.above _ _ _ hb _ (Or.inr rfl) r' hr')
      (S.low _ _ _ _ ha _ (Line.highest_or _) r' hr') (S.low _ _ _ _ ha _ (Line.lowest_or _) r' hr')
      (S.near_low _ hb heb _ (Or.inl rfl) r' hr') (S.near_low _ hb heb _ (Or.inr rfl) r' hr')
      (by rw [distPt_comm]; exact S.near_low _ ha hea _ (Line.highest_or _) r' hr')
      (by rw [distPt_comm]; exact S.near_low _ ha hea _ (Line.lowest_or _) r' hr')
      (S'.above _ _ _ hb _ (Or.inl rfl) r' hr') (S'.above _ _ _ hb _ (Or.inr rfl) r' hr')
      (S'.low _ _ _ _ ha _ (Line.highest_or _) r' hr')
      (S'.low _ _ _ _ ha _ (Line.lowest_or _) r' hr')
      (S'.near_low _ hb heb _ (Or.inl rfl) r' hr') (S'.near_low _ hb heb _ (Or.inr rfl) r' hr')
  have main : |(vfPvGnd (g'.coords (.pv r s k sh)) r p.nRows (g'.rot.deg > 0)
        (fun k => (g'.row k).full)
        (g'.coords (.gnd sh' e z)) (g'.coords (.pv r s k sh)).length bk lf).1
      - (vfPvGnd (g.coords (.pv r s k sh)) r p.nRows (g.rot.deg > 0) (fun k => (g.row k).full)
        (g.coords (.gnd sh' e z)) (g.coords (.pv r s k sh)).length bk lf).1| ≤ rowMove D w c σ τ ∧
      |(vfPvGnd (g.coords (.pv r s k sh)) r p.nRows (g.rot.deg > 0) (fun k => (g.row k).full)
        (g.coords (.gnd sh' e z)) (g.coords (.pv r s k sh)).length bk lf).1| ≤ 4 * D / w := by
    have z : |(0 : ℝ) - 0| ≤ rowMove D w c σ τ ∧ |(0 : ℝ)| ≤ 4 * D / w := by
      rw [sub_self, abs_zero]; exact ⟨r0, by positivity⟩
    unfold vfPvGnd
    dsimp only
    have tilt : (g.rot.deg > 0 ∧ g'.rot.deg > 0) ∨ (¬ g.rot.deg > 0 ∧ ¬ g'.rot.deg > 0) := by
      by_cases ht : g.rot.deg > 0
      · exact Or.inl ⟨ht, N.tilt.2 ht⟩
      · exact Or.inr ⟨ht, fun h => ht (N.tilt.1 h)⟩
    by_cases no : (lf = true ∧ r = 0) ∨ (¬ lf = true ∧ r = p.nRows - 1)
    · simp only [if_pos no]
      rcases tilt with ⟨ht, ht'⟩ | ⟨ht, ht'⟩ <;> cases lf <;> cases bk <;>
        simp only [Bool.false_eq_true, if_false, if_true, ht, ht'] <;>
        first | exact sb | exact z
    · simp only [if_neg no]
      have hidx : (if lf = true then r - 1 else r + 1) < p.nRows := by
        cases lf
        · simp only [Bool.false_eq_true, if_false]
          simp at no
          omega
        · simp only [if_true]
          omega
      have hh := hob _ hidx
      rcases tilt with ⟨ht, ht'⟩ | ⟨ht, ht'⟩ <;> cases lf <;> cases bk <;>
        simp only [Bool.false_eq_true, if_false, if_true, ht, ht'] at hh ⊢ <;>
        first | exact hh | exact z
  refine ⟨main.1.trans re, ?_⟩
  exact recip_move hτ S.tol S.slack S.clear S.size main.1 main.2 (Arith.length_le_of S ha hea)
    (Arith.length_le_of S' ha hea) (S.long _ hb) (S'.long _ hb) hτw (N.ends _ ha) (N.ends _ hb)

/-- All view factors between surfaces change little. -/
theorem vfNoSky_move (i j : ℕ) :
    |vfNoSky p g' emp i j - vfNoSky p g emp i j| ≤ entryMove D w c σ τ := by
  classical
  have eb : 0 ≤ entryMove D w c σ τ := by
    obtain ⟨r0, re⟩ := rowMove_le hτ S.tol S.slack S.clear S.size
    linarith
  have gndSurf : ∀ r < p.nRows, ∀ s bk, ∀ a ∈ sideRefs p r s,
      List.Forall₂ (AsgNear (entryMove D w c σ τ)) (asgPvGndSurf p g' emp r bk a)
        (asgPvGndSurf p g emp r bk a) := by
    intro r hr s bk a ha
    obtain ⟨k, sh, rfl, hk⟩ := mem_sideRefs.1 ha
    have ham : SurfRef.pv r s k sh ∈ surfaces p := mem_surfaces.2 (mem_allRefs_pv.2 ⟨hr, hk⟩)
    unfold asgPvGndSurf
    by_cases hea : emp (.pv r s k sh)
    · rw [if_pos hea, if_pos hea]; exact List.Forall₂.nil
    · rw [if_neg hea, if_neg hea]
      have side : ∀ lf : Bool, List.Forall₂ (AsgNear (entryMove D w c σ τ)) _ _ := fun lf =>
        forall₂_flatMap (l := gndRefsSide p lf r)
          (f := fun b => if emp b then [] else
            [⟨surfIndex p (.pv r s k sh), surfIndex p b, (vfPvGnd (g'.coords (.pv r s k sh)) r
              p.nRows (g'.rot.deg > 0) (fun k => (g'.row k).full) (g'.coords b)
              (g'.coords (.pv r s k sh)).length bk lf).1⟩,
             ⟨surfIndex p b, surfIndex p (.pv r s k sh), (vfPvGnd (g'.coords (.pv r s k sh)) r
              p.nRows (g'.rot.deg > 0) (fun k => (g'.row k).full) (g'.coords b)
              (g'.coords (.pv r s k sh)).length bk lf).2⟩])
          (g := fun b => if emp b then [] else
            [⟨surfIndex p (.pv r s k sh), surfIndex p b, (vfPvGnd (g.coords (.pv r s k sh)) r
              p.nRows (g.rot.deg > 0) (fun k => (g.row k).full) (g.coords b)
              (g.coords (.pv r s k sh)).length bk lf).1⟩,
             ⟨surfIndex p b, surfIndex p (.pv r s k sh), (vfPvGnd (g.coords (.pv r s k sh)) r
              p.nRows (g.rot.deg > 0) (fun k => (g.row k).full) (g.coords b)
              (g.coords (.pv r s k sh)).length bk lf).2⟩])
          (by
            intro b hb
            have hbm : b ∈ surfaces p := mem_surfaces.2 (gndRefsSide_subset hr hb)
            obtain ⟨sh', e, z, rfl, -⟩ := (mem_gndRefsSide hr).1 hb
            by_cases heb : emp (.gnd sh' e z)
            · rw [if_pos heb, if_pos heb]; exact List.Forall₂.nil
            · rw [if_neg heb, if_neg heb]
              have n := pvGnd_move S S' N hτ hτw ham hbm hea heb bk lf
              exact Arith.asg_pair n.1 n.2)
      exact List.rel_append (side true) (side false)
  have pg : List.Forall₂ (AsgNear (entryMove D w c σ τ)) (asgPvGnd p g' emp)
      (asgPvGnd p g emp) := by
    unfold asgPvGnd
    refine forall₂_flatMap fun r hr => ?_
    have hr' := List.mem_range.1 hr
    exact List.rel_append (forall₂_flatMap (gndSurf r hr' _ false))
      (forall₂_flatMap (gndSurf r hr' _ true))
  have sides : ∀ r, r + 1 < p.nRows → ∀ fb, List.Forall₂ (AsgNear (entryMove D w c σ τ))
      (asgPvPvSides p g' emp r fb) (asgPvPvSides p g emp r fb) := by
    intro r hr fb
    unfold asgPvPvSides
    refine forall₂_flatMap fun a ha => ?_
    obtain ⟨k, sh, rfl, hk⟩ := mem_sideRefs.1 ha
    have ham : SurfRef.pv r _ k sh ∈ surfaces p :=
      mem_surfaces.2 (mem_allRefs_pv.2 ⟨by omega, hk⟩)
    by_cases hea : emp (.pv r (if fb = true then .front else .back) k sh)
    · rw [if_pos hea, if_pos hea]; exact List.Forall₂.nil
    · rw [if_neg hea, if_neg hea]
      refine forall₂_flatMap fun b hb => ?_
      obtain ⟨k', sh', rfl, hk'⟩ := mem_sideRefs.1 hb
      have hbm : SurfRef.pv (r + 1) _ k' sh' ∈ surfaces p :=
        mem_surfaces.2 (mem_allRefs_pv.2 ⟨hr, hk'⟩)
      by_cases heb : emp (.pv (r + 1) (if fb = true then .back else .front) k' sh')
      · rw [if_pos heb, if_pos heb]; exact List.Forall₂.nil
      · rw [if_neg heb, if_neg heb]
        have n := pvPv_move S S' N hτ hτw ham hbm hea heb fb
        exact Arith.asg_pair n.1 n.2
  have pp : List.Forall₂ (AsgNear (entryMove D w c σ τ)) (asgPvPv p g' emp)
      (asgPvPv p g emp) := by
    unfold asgPvPv
    refine forall₂_flatMap fun r hr => ?_
    have hr' := List.mem_range.1 hr
    exact List.rel_append (sides r (by omega) true) (sides r (by omega) false)
  unfold vfNoSky
  exact applyAsg_near pp (applyAsg_near pg fun i j => by rw [sub_self, abs_zero]; exact eb) i j

theorem between_move {a b : SurfRef} (hb : b ∈ surfaces p) :
    |vfBetween p (vfMatrix p g' emp) a b - vfBetween p (vfMatrix p g emp) a b|
      ≤ entryMove D w c σ τ := by
  have := surfIndex_lt (mem_surfaces.1 hb)
  unfold vfBetween vfMatrix
  dsimp only
  rw [if_neg (by omega), if_neg (by omega)]
  exact vfNoSky_move S S' N hτ hτw _ _

theorem length_move {a : SurfRef} (ha : a ∈ surfaces p) :
    (¬ (g.coords a).length > TOL ∧ ¬ (g'.coords a).length > TOL) ∨
      ((g.coords a).length > TOL ∧ (g'.coords a).length > TOL) := by
  have T := TOL_pos
  have tol := S.tol
  have := distPt_lip (g.coords a).b1 (g.coords a).b2 (g'.coords a).b1 (g'.coords a).b2
  obtain ⟨e1, e2⟩ := N.ends a ha
  have h : |(g'.coords a).length - (g.coords a).length| ≤ 2 * τ := by
    have e : (g'.coords a).length - (g.coords a).length = distPt (g'.coords a).b1 (g'.coords a).b2
      - distPt (g.coords a).b1 (g.coords a).b2 := rfl
    rw [e]; linarith
  rw [abs_le] at h
  rcases S.long a ha with h1 | h1 <;> rcases S'.long a ha with h2 | h2
  · have p1 : 0 ≤ (g.coords a).length := Real.sqrt_nonneg _
    have p2 : 0 ≤ (g'.coords a).length := Real.sqrt_nonneg _
    exact Or.inl ⟨not_lt.2 (by linarith), not_lt.2 (by linarith)⟩
  · linarith [h.2]
  · linarith [h.1]
  · exact Or.inr ⟨by linarith, by linarith⟩

theorem sky_move {a : SurfRef} (ha : a ∈ surfaces p) :
    |vfToSky p (vfMatrix p g' emp) a - vfToSky p (vfMatrix p g emp) a|
      ≤ nTsSurfaces p * entryMove D w c σ τ := by
  have T := TOL_pos
  have hm := mem_surfaces.1 ha
  have hlt := surfIndex_lt hm
  have eb : 0 ≤ entryMove D w c σ τ := by
    obtain ⟨r0, re⟩ := rowMove_le hτ S.tol S.slack S.clear S.size
    linarith
  have l2 : ∀ g : StepGeom, surfLen p g (surfIndex p a) = (g.coords a).length := by
    intro g
    unfold surfLen
    rw [getElem?_surfIndex hm]; rfl
  have e : ∀ g : StepGeom, vfToSky p (vfMatrix p g emp) a
      = if (g.coords a).length > TOL
        then 1 - ∑ k ∈ Finset.range (nTsSurfaces p), vfNoSky p g emp (surfIndex p a) k else 0 := by
    intro g
    unfold vfToSky vfMatrix
    dsimp only
    rw [if_pos ⟨rfl, hlt⟩, l2]
  rw [e, e]
  rcases length_move S S' N hτ hτw ha with ⟨h1, h2⟩ | ⟨h1, h2⟩
  · rw [if_neg h1, if_neg h2, sub_self, abs_zero]
    positivity
  · rw [if_pos h1, if_pos h2, sub_sub_sub_cancel_left, abs_sub_comm, ← Finset.sum_sub_distrib]
    refine (Finset.abs_sum_le_sum_abs _ _).trans ?_
    refine (Finset.sum_le_sum fun k _ => vfNoSky_move S S' N hτ hτw _ k).trans ?_
    rw [Finset.sum_const, Finset.card_range, nsmul_eq_mul]

end
end PVF

import Verif.Lemmas.RoundedVF
import Verif.Lemmas.Radiosity
import Verif.Lemmas.Row

/-! # Rounding errors of the view factor matrix -/

namespace PVF

/-- All that is needed of a scene. -/
structure Scene (p : ArrayParams) (g : StepGeom) (emp : SurfRef → Prop) (D w c σ : ℝ) : Prop extends
  SceneSize p g emp D w, RowsAbove p g c σ

theorem Line.highest_or (l : Line) : l.highest = l.b1 ∨ l.highest = l.b2 := by
  unfold Line.highest; split_ifs <;> simp

theorem Line.lowest_or (l : Line) : l.lowest = l.b1 ∨ l.lowest = l.b2 := by
  unfold Line.lowest; split_ifs <;> simp

theorem hottelString_bound (P G O : Pt) (s : Bool) :
    0 ≤ hottelString P G O s ∧ hottelString P G O s ≤ distPt G O + distPt O P := by
  have tri : distPt P G ≤ distPt G O + distPt O P := by
    have := distPt_triangle G O P
    rwa [distPt_comm P G]
  have := distPt_nonneg P G
  have := distPt_nonneg G O
  have := distPt_nonneg O P
  unfold hottelString
  dsimp only
  split_ifs <;> constructor <;> linarith

section
variable {ε D w c σ : ℝ} (h0 : 0 ≤ ε) (h1 : ε ≤ 1 / 8) (hw : 0 < w) (hσ : 0 ≤ σ) (hc : σ < c) (hD : w ≤ D)
include h0 h1

theorem grow_three : grow ε ^ 3 < 2 := by
  have hg : grow ε ≤ 8 / 7 := by
    unfold grow
    rw [div_le_div_iff₀ (by linarith) (by norm_num)]
    linarith
  have h1' := grow_one h0 (show ε < 1 by linarith)
  calc grow ε ^ 3 ≤ (8 / 7 : ℝ) ^ 3 := pow_le_pow_left₀ (by linarith) hg 3
    _ < 2 := by norm_num

include hw hσ hc hD

theorem rowBound_nonneg : 0 ≤ rowBound ε D w c σ := by
  have a := grow_pow_one h0 (show ε < 1 by linarith) 12
  have b := grow_one h0 (show ε < 1 by linarith)
  have hD0 : 0 < D := by linarith
  have hcs : 0 < c - σ := by linarith
  have hc0 : 0 < c := by linarith
  unfold rowBound
  exact add_nonneg (add_nonneg (mul_nonneg (by linarith) (by positivity))
    (mul_nonneg (by linarith) (by positivity))) (by positivity)

theorem rowBound_le : rowBound ε D w c σ ≤ entryBound ε D w c σ := by
  have r := rowBound_nonneg h0 h1 hw hσ hc hD
  have a := grow_pow_one h0 (show ε < 1 by linarith) 8
  have hD0 : 0 < D := by linarith
  have q : 1 ≤ D / w := by rw [le_div_iff₀ hw]; linarith
  have e : 0 ≤ (grow ε ^ 8 - 1) * (4 * D / w) := mul_nonneg (by linarith) (by positivity)
  have f : rowBound ε D w c σ ≤ (grow ε ^ 8 - 1) * (4 * D / w) + grow ε ^ 8 * rowBound ε D w c σ := by
    nlinarith
  unfold entryBound
  nlinarith

theorem entryBound_nonneg : 0 ≤ entryBound ε D w c σ :=
  (rowBound_nonneg h0 h1 hw hσ hc hD).trans (rowBound_le h0 h1 hw hσ hc hD)

end

namespace Arith
variable {ε D w c σ : ℝ} (h0 : 0 ≤ ε) (h1 : ε ≤ 1 / 8) (hT : 2 * TOL ≤ w) (hσ : 0 ≤ σ) (hc : σ < c) (hD : w ≤ D)
  (A : Arith ε)
include h0 h1

theorem length_rel (l : Line) : Rel ε 3 (A.length l) l.length :=
  A.dist_rel h0 (show ε < 1 by linarith) l.b1 l.b2

theorem length_short {l : Line} (h : 2 * l.length ≤ TOL) :
    ¬ A.length l > TOL ∧ ¬ l.length > TOL := by
  have r := (A.length_rel h0 h1 l).2
  have l0 : 0 ≤ l.length := Real.sqrt_nonneg _
  have g := mul_le_mul_of_nonneg_right (grow_three h0 h1).le l0
  exact ⟨not_lt.2 (by linarith), not_lt.2 (by linarith)⟩

include hT

theorem length_long {l : Line} (h : w ≤ l.length) : A.length l > TOL ∧ l.length > TOL := by
  have r := (A.length_rel h0 h1 l).1
  have n := (A.length_rel h0 h1 l).nonneg h0 (show ε < 1 by linarith)
    (by have := TOL_pos; linarith)
  have g := grow_three h0 h1
  have T := TOL_pos
  refine ⟨?_, by linarith⟩
  by_contra hcon
  have e1 : A.length l ≤ TOL := not_lt.1 hcon
  have e2 := mul_le_mul_of_nonneg_left e1 (show 0 ≤ grow ε ^ 3 by
    linarith [grow_pow_one h0 (show ε < 1 by linarith) 3])
  have e3 := mul_lt_mul_of_pos_right g T
  linarith

include hσ hc hD

/-- View factors between two lines. -/
theorem surfSurf_bound {a b : Line} (ha : 2 * a.length ≤ TOL ∨ w ≤ a.length)
    (hd : distPt a.b1 b.b1 ≤ D ∧ distPt a.b2 b.b2 ≤ D ∧ distPt a.b1 b.b2 ≤ D ∧
      distPt a.b2 b.b1 ≤ D) :
    |A.surfSurf a b (A.length a) - vfSurfSurf a b a.length| ≤ rowBound ε D w c σ ∧
      |vfSurfSurf a b a.length| ≤ 4 * D / w := by
  have T := TOL_pos
  have hw : 0 < w := by linarith
  have hD0 : 0 < D := by linarith
  have h1' : ε < 1 := by linarith
  have rb := rowBound_nonneg h0 h1 hw hσ hc hD
  rcases ha with ha | ha
  · have e1 : A.surfSurf a b (A.length a) = 0 := by
      unfold surfSurf
      dsimp only
      rw [if_neg (A.length_short h0 h1 ha).1]
    have e2 : vfSurfSurf a b a.length = 0 := by
      unfold vfSurfSurf
      dsimp only
      rw [if_neg (A.length_short h0 h1 ha).2]
    rw [e1, e2, sub_self, abs_zero]
    exact ⟨rb, by positivity⟩
  · have hl : 0 < a.length := by linarith
    obtain ⟨l1, l2⟩ := A.length_long h0 h1 hT ha
    have n := A.surfSurf_near h0 h1' (a := a) (b := b) (A.length_rel h0 h1 a) hl l1 l2
    obtain ⟨d1, d2, d3, d4⟩ := hd
    have m : (distPt a.b1 b.b2 + distPt a.b2 b.b1 + (distPt a.b1 b.b1 + distPt a.b2 b.b2))
        / (2 * a.length) ≤ 4 * D / w := by
      calc _ ≤ (4 * D) / (2 * a.length) := div_le_div_of_nonneg_right (by linarith) (by linarith)
        _ ≤ 4 * D / w := div_le_div_of_nonneg_left (by linarith) hw (by linarith)
    refine ⟨n.1.trans ?_, n.2.trans m⟩
    have g1 := grow_pow_one h0 h1' 10
    have g2 := grow_mono h0 h1' (show 10 ≤ 12 by norm_num)
    have g3 := grow_one h0 h1'
    unfold rowBound
    have s1 := mul_le_mul_of_nonneg_left m (show 0 ≤ grow ε ^ 10 - 1 by linarith)
    have s2 := mul_le_mul_of_nonneg_right (show grow ε ^ 10 - 1 ≤ grow ε ^ 12 - 1 by linarith)
      (show 0 ≤ 4 * D / w by positivity)
    have hcs : 0 < c - σ := by linarith
    have hc0 : 0 < c := by linarith
    have s3 : 0 ≤ (grow ε - 1) * (40 * D ^ 2 / ((c - σ) * w)) :=
      mul_nonneg (by linarith) (by positivity)
    have s4 : 0 ≤ 4 * σ * D / (c * w) := by positivity
    linarith

/-- View factors past an obstruction. -/
theorem hottelGnd_bound {a : Line} {H L G1 G2 O : Pt} {s : Bool}
    (ha : 2 * a.length ≤ TOL ∨ w ≤ a.length) (g1 : G1.y + c ≤ O.y) (g2 : G2.y + c ≤ O.y)
    (oh : O.y ≤ H.y + σ) (ol : O.y ≤ L.y + σ) (dg1 : distPt G1 O ≤ D) (dg2 : distPt G2 O ≤ D)
    (dh : distPt O H ≤ D) (dl : distPt O L ≤ D) (d1h : distPt G1 H ≤ D) (d1l : distPt G1 L ≤ D)
    (d2h : distPt G2 H ≤ D) (d2l : distPt G2 L ≤ D) :
    |A.hottelGnd H L G1 G2 O (A.length a) s - vfHottelGnd H L G1 G2 O a.length s|
        ≤ rowBound ε D w c σ ∧
      |vfHottelGnd H L G1 G2 O a.length s| ≤ 4 * D / w := by
  have T := TOL_pos
  have hw : 0 < w := by linarith
  have hD0 : 0 < D := by linarith
  have h1' : ε < 1 := by linarith
  have rb := rowBound_nonneg h0 h1 hw hσ hc hD
  rcases ha with ha | ha
  · have e1 : A.hottelGnd H L G1 G2 O (A.length a) s = 0 := by
      unfold hottelGnd
      dsimp only
      rw [if_neg (A.length_short h0 h1 ha).1]
    have e2 : vfHottelGnd H L G1 G2 O a.length s = 0 := by
      unfold vfHottelGnd
      dsimp only
      rw [if_neg (A.length_short h0 h1 ha).2]
    rw [e1, e2, sub_self, abs_zero]
    exact ⟨rb, by positivity⟩
  · have hl : 0 < a.length := by linarith
    obtain ⟨l1, l2⟩ := A.length_long h0 h1 hT ha
    have hcs : 0 < c - σ := by linarith
    have hc0 : 0 < c := by linarith
    have n := A.hottelGnd_err h0 h1' (s := s) (A.length_rel h0 h1 a) hl l1 l2 hσ
      (show G1.y < O.y by linarith) (show G2.y < O.y by linarith) (by linarith) (by linarith)
      (by linarith) (by linarith) oh ol
    have m : ((distPt G1 O + distPt O H) + (distPt G1 O + distPt O L) + (distPt G2 O + distPt O H)
        + (distPt G2 O + distPt O L)) / (2 * a.length) ≤ 4 * D / w := by
      rw [div_le_div_iff₀ (by linarith) hw]
      calc _ ≤ (8 * D) * w := mul_le_mul_of_nonneg_right (by linarith) hw.le
        _ ≤ (8 * D) * a.length := mul_le_mul_of_nonneg_left ha (by linarith)
        _ = _ := by ring
    have q : ∀ {G P : Pt}, G.y + c ≤ O.y → O.y ≤ P.y + σ → distPt G O ≤ D → distPt G P ≤ D →
        distPt G O * distPt G P / (P.y - G.y) ≤ D ^ 2 / (c - σ) := by
      intro G P e1 e2 e3 e4
      rw [sq]
      exact div_le_div₀ (by positivity) (mul_le_mul e3 e4 (distPt_nonneg _ _) hD0.le) hcs
        (by linarith)
    have q' : ∀ {G : Pt}, G.y + c ≤ O.y → distPt G O ≤ D →
        σ * distPt G O / (O.y - G.y) ≤ σ * D / c := by
      intro G e1 e3
      exact div_le_div₀ (by positivity) (mul_le_mul_of_nonneg_left e3 hσ) hc0 (by linarith)
    have q5 := q' g1 dg1
    have q6 := q' g2 dg2
    have q1 := q g1 oh dg1 d1h
    have q2 := q g1 ol dg1 d1l
    have q3 := q g2 oh dg2 d2h
    have q4 := q g2 ol dg2 d2l
    have gg := grow_one h0 h1'
    constructor
    · refine n.trans ?_
      unfold rowBound
      refine add_le_add (add_le_add (mul_le_mul_of_nonneg_left m ?_) ?_) ?_
      · linarith [grow_pow_one h0 h1' 12]
      · have s1 : distPt G1 O * distPt G1 H / (H.y - G1.y) + distPt G1 O * distPt G1 L / (L.y - G1.y)
            + distPt G2 O * distPt G2 H / (H.y - G2.y) + distPt G2 O * distPt G2 L / (L.y - G2.y)
            ≤ 4 * (D ^ 2 / (c - σ)) := by linarith
        calc _ ≤ 20 * (grow ε - 1) * (4 * (D ^ 2 / (c - σ))) / (2 * a.length) :=
              div_le_div_of_nonneg_right (mul_le_mul_of_nonneg_left s1 (by linarith)) (by linarith)
          _ ≤ 20 * (grow ε - 1) * (4 * (D ^ 2 / (c - σ))) / (2 * w) :=
              div_le_div_of_nonneg_left (mul_nonneg (by linarith) (by positivity)) (by linarith)
                (by linarith)
          _ = _ := by field_simp; ring
      · calc _ ≤ 4 * (2 * (σ * D / c)) / (2 * a.length) :=
              div_le_div_of_nonneg_right (by linarith) (by linarith)
          _ ≤ 4 * (2 * (σ * D / c)) / (2 * w) :=
              div_le_div_of_nonneg_left (by positivity) (by linarith) (by linarith)
          _ = _ := by field_simp
    · refine le_trans ?_ m
      unfold vfHottelGnd
      simp only [if_pos l2]
      rw [abs_div, abs_of_pos (show 0 < 2 * a.length by linarith)]
      refine div_le_div_of_nonneg_right ?_ (by linarith)
      obtain ⟨x1, y1⟩ := hottelString_bound H G1 O s
      obtain ⟨x2, y2⟩ := hottelString_bound L G1 O s
      obtain ⟨x3, y3⟩ := hottelString_bound H G2 O s
      obtain ⟨x4, y4⟩ := hottelString_bound L G2 O s
      cases s
      · simp only [Bool.false_eq_true, if_false]
        rw [abs_le]; constructor <;> linarith
      · simp only [if_true]
        rw [abs_le]; constructor <;> linarith

/-- View factors back to a row. -/
theorem recip_bound {a b : Line} {x' x : ℝ} (hx : |x' - x| ≤ rowBound ε D w c σ)
    (hM : |x| ≤ 4 * D / w) (ha : a.length ≤ D) (hb : 2 * b.length ≤ TOL ∨ w ≤ b.length) :
    |(if A.length b > TOL then A.div (A.mul x' (A.length a)) (A.length b) else 0)
      - (if b.length > TOL then x * a.length / b.length else 0)| ≤ entryBound ε D w c σ := by
  have T := TOL_pos
  have hw : 0 < w := by linarith
  have hD0 : 0 < D := by linarith
  have h1' : ε < 1 := by linarith
  have rb := rowBound_nonneg h0 h1 hw hσ hc hD
  have eb := entryBound_nonneg h0 h1 hw hσ hc hD
  rcases hb with hb | hb
  · obtain ⟨l1, l2⟩ := A.length_short h0 h1 hb
    rw [if_neg l1, if_neg l2, sub_self, abs_zero]
    exact eb
  · obtain ⟨l1, l2⟩ := A.length_long h0 h1 hT hb
    have hl : 0 < b.length := by linarith
    have hal : 0 ≤ a.length := Real.sqrt_nonneg _
    rw [if_pos l1, if_pos l2]
    refine (A.recip h0 h1' hx hM (A.length_rel h0 h1 a) hal (A.length_rel h0 h1 b) hl).trans ?_
    unfold entryBound
    have g := grow_pow_one h0 h1' 8
    refine mul_le_mul_of_nonneg_left (div_le_div₀ hD0.le ha hw hb) ?_
    exact add_nonneg (mul_nonneg (by linarith) (by positivity)) (mul_nonneg (by linarith) rb)

end Arith

/-! ## Assignments -/

/-- Two assignments to the same place of values that differ by at most `δ`. -/
def AsgNear (δ : ℝ) (a' a : Asg) : Prop := a'.i = a.i ∧ a'.j = a.j ∧ |a'.v - a.v| ≤ δ

theorem forall₂_flatMap {α β γ : Type*} {R : β → γ → Prop} {l : List α} {f : α → List β}
    {g : α → List γ} (h : ∀ x ∈ l, List.Forall₂ R (f x) (g x)) :
    List.Forall₂ R (l.flatMap f) (l.flatMap g) := by
  induction l with
  | nil => exact List.Forall₂.nil
  | cons x l ih =>
    rw [List.flatMap_cons, List.flatMap_cons]
    exact List.rel_append (h x List.mem_cons_self)
      (ih fun y hy => h y (List.mem_cons_of_mem _ hy))

theorem applyAsg_near {δ : ℝ} {l' l : List Asg} (h : List.Forall₂ (AsgNear δ) l' l) :
    ∀ {m' m : ℕ → ℕ → ℝ}, (∀ i j, |m' i j - m i j| ≤ δ) →
      ∀ i j, |applyAsg m' l' i j - applyAsg m l i j| ≤ δ := by
  unfold applyAsg
  induction h with
  | nil => intro m' m hm i j; exact hm i j
  | cons hx _ ih =>
    intro m' m hm i j
    rw [List.foldl_cons, List.foldl_cons]
    refine ih (fun i j => ?_) i j
    obtain ⟨e1, e2, e3⟩ := hx
    rw [e1, e2]
    split_ifs
    · exact e3
    · exact hm i j

namespace Arith
variable {ε D w c σ : ℝ} (h0 : 0 ≤ ε) (h1 : ε ≤ 1 / 8) (A : Arith ε)
include h0 h1

omit h0 h1 in
theorem asg_pair {δ : ℝ} {i j : ℕ} {x' x : ℝ × ℝ} (e1 : |x'.1 - x.1| ≤ δ) (e2 : |x'.2 - x.2| ≤ δ) :
    List.Forall₂ (AsgNear δ) [⟨i, j, x'.1⟩, ⟨j, i, x'.2⟩] [⟨i, j, x.1⟩, ⟨j, i, x.2⟩] :=
  List.Forall₂.cons ⟨rfl, rfl, e1⟩ (List.Forall₂.cons ⟨rfl, rfl, e2⟩ List.Forall₂.nil)

variable {p : ArrayParams} {g : StepGeom} {emp : SurfRef → Prop}

omit h0 h1 in
theorem length_le_of (S : Scene p g emp D w c σ) {a : SurfRef} (ha : a ∈ surfaces p)
    (hea : ¬ emp a) : (g.coords a).length ≤ D :=
  S.near a ha a ha hea hea _ (Or.inl rfl) _ (Or.inr rfl)

theorem pvPv_near (S : Scene p g emp D w c σ) {a b : SurfRef} (ha : a ∈ surfaces p)
    (hb : b ∈ surfaces p) (hea : ¬ emp a) (heb : ¬ emp b) (t : Prop) (fb : Bool) :
    |(A.vfPvPv (g.coords a) (g.coords b) t fb).1 - (PVF.vfPvPv (g.coords a) (g.coords b) t fb).1|
        ≤ entryBound ε D w c σ ∧
    |(A.vfPvPv (g.coords a) (g.coords b) t fb).2 - (PVF.vfPvPv (g.coords a) (g.coords b) t fb).2|
        ≤ entryBound ε D w c σ := by
  classical
  have T := TOL_pos
  have hw : 0 < w := by linarith [S.tol]
  have hD0 : 0 < D := by linarith [S.size]
  have rb := rowBound_nonneg h0 h1 hw S.slack S.clear S.size
  have re := rowBound_le h0 h1 hw S.slack S.clear S.size
  have sb := A.surfSurf_bound h0 h1 S.tol S.slack S.clear S.size (b := g.coords b) (S.long a ha)
    ⟨S.near a ha b hb hea heb _ (Or.inl rfl) _ (Or.inl rfl),
      S.near a ha b hb hea heb _ (Or.inr rfl) _ (Or.inr rfl),
      S.near a ha b hb hea heb _ (Or.inl rfl) _ (Or.inr rfl),
      S.near a ha b hb hea heb _ (Or.inr rfl) _ (Or.inl rfl)⟩
  have hla := length_le_of S ha hea
  have main : |(A.vfPvPv (g.coords a) (g.coords b) t fb).1
        - (PVF.vfPvPv (g.coords a) (g.coords b) t fb).1| ≤ rowBound ε D w c σ ∧
      |(PVF.vfPvPv (g.coords a) (g.coords b) t fb).1| ≤ 4 * D / w := by
    have z : |(0 : ℝ) - 0| ≤ rowBound ε D w c σ ∧ |(0 : ℝ)| ≤ 4 * D / w := by
      rw [sub_self, abs_zero]; exact ⟨rb, by positivity⟩
    unfold vfPvPv PVF.vfPvPv
    dsimp only
    cases fb
    · simp only [Bool.false_eq_true, if_false]
      by_cases ht : t
      · rw [if_pos ht, if_pos ht]; exact sb
      · rw [if_neg ht, if_neg ht]; exact z
    · simp only [if_true]
      by_cases ht : t
      · rw [if_pos ht, if_pos ht]; exact z
      · rw [if_neg ht, if_neg ht]; exact sb
  refine ⟨main.1.trans re, ?_⟩
  exact A.recip_bound h0 h1 S.tol S.slack S.clear S.size main.1 main.2 hla (S.long b hb)

theorem pvGnd_near (S : Scene p g emp D w c σ) {r : ℕ} {s : RowSide} {k : ℕ} {sh : Bool}
    (ha : SurfRef.pv r s k sh ∈ surfaces p) {sh' : Bool} {e z : ℕ}
    (hb : SurfRef.gnd sh' e z ∈ surfaces p)
    (hea : ¬ emp (.pv r s k sh)) (heb : ¬ emp (.gnd sh' e z)) (t : Prop) (bk lf : Bool) :
    |(A.vfPvGnd (g.coords (.pv r s k sh)) r p.nRows t (fun k => (g.row k).full)
        (g.coords (.gnd sh' e z)) (A.length (g.coords (.pv r s k sh))) bk lf).1
      - (PVF.vfPvGnd (g.coords (.pv r s k sh)) r p.nRows t (fun k => (g.row k).full)
        (g.coords (.gnd sh' e z)) (g.coords (.pv r s k sh)).length bk lf).1|
        ≤ entryBound ε D w c σ ∧
    |(A.vfPvGnd (g.coords (.pv r s k sh)) r p.nRows t (fun k => (g.row k).full)
        (g.coords (.gnd sh' e z)) (A.length (g.coords (.pv r s k sh))) bk lf).2
      - (PVF.vfPvGnd (g.coords (.pv r s k sh)) r p.nRows t (fun k => (g.row k).full)
        (g.coords (.gnd sh' e z)) (g.coords (.pv r s k sh)).length bk lf).2|
        ≤ entryBound ε D w c σ := by
  classical
  have T := TOL_pos
  have hw : 0 < w := by linarith [S.tol]
  have hD0 : 0 < D := by linarith [S.size]
  have rb := rowBound_nonneg h0 h1 hw S.slack S.clear S.size
  have re := rowBound_le h0 h1 hw S.slack S.clear S.size
  have hr : r < p.nRows := (mem_allRefs_pv.1 (mem_surfaces.1 ha)).1
  have nr := S.near _ ha _ hb hea heb
  have sb := A.surfSurf_bound h0 h1 S.tol S.slack S.clear S.size (b := g.coords (.gnd sh' e z))
    (S.long _ ha) ⟨nr _ (Or.inl rfl) _ (Or.inl rfl), nr _ (Or.inr rfl) _ (Or.inr rfl),
      nr _ (Or.inl rfl) _ (Or.inr rfl), nr _ (Or.inr rfl) _ (Or.inl rfl)⟩
  have hob : ∀ r' < p.nRows, _ := fun r' hr' =>
    A.hottelGnd_bound h0 h1 S.tol S.slack S.clear S.size (a := g.coords (.pv r s k sh)) (s := lf)
      (H := (g.coords (.pv r s k sh)).highest) (L := (g.coords (.pv r s k sh)).lowest)
      (G1 := (g.coords (.gnd sh' e z)).b1) (G2 := (g.coords (.gnd sh' e z)).b2)
      (O := (g.row r').full.lowest) (S.long _ ha)
      (S.above _ _ _ hb _ (Or.inl rfl) r' hr') (S.above _ _ _ hb _ (Or.inr rfl) r' hr')
      (S.low _ _ _ _ ha _ (Line.highest_or _) r' hr') (S.low _ _ _ _ ha _ (Line.lowest_or _) r' hr')
      (S.near_low _ hb heb _ (Or.inl rfl) r' hr') (S.near_low _ hb heb _ (Or.inr rfl) r' hr')
      (by rw [distPt_comm]; exact S.near_low _ ha hea _ (Line.highest_or _) r' hr')
      (by rw [distPt_comm]; exact S.near_low _ ha hea _ (Line.lowest_or _) r' hr')
      (by rw [distPt_comm]; exact nr _ (Line.highest_or _) _ (Or.inl rfl))
      (by rw [distPt_comm]; exact nr _ (Line.lowest_or _) _ (Or.inl rfl))
      (by rw [distPt_comm]; exact nr _ (Line.highest_or _) _ (Or.inr rfl))
      (by rw [distPt_comm]; exact nr _ (Line.lowest_or _) _ (Or.inr rfl))
  have hla := length_le_of S ha hea
  have main : |(A.vfPvGnd (g.coords (.pv r s k sh)) r p.nRows t (fun k => (g.row k).full)
        (g.coords (.gnd sh' e z)) (A.length (g.coords (.pv r s k sh))) bk lf).1
      - (PVF.vfPvGnd (g.coords (.pv r s k sh)) r p.nRows t (fun k => (g.row k).full)
        (g.coords (.gnd sh' e z)) (g.coords (.pv r s k sh)).length bk lf).1| ≤ rowBound ε D w c σ ∧
      |(PVF.vfPvGnd (g.coords (.pv r s k sh)) r p.nRows t (fun k => (g.row k).full)
        (g.coords (.gnd sh' e z)) (g.coords (.pv r s k sh)).length bk lf).1| ≤ 4 * D / w := by
    have z : |(0 : ℝ) - 0| ≤ rowBound ε D w c σ ∧ |(0 : ℝ)| ≤ 4 * D / w := by
      rw [sub_self, abs_zero]; exact ⟨rb, by positivity⟩
    unfold vfPvGnd PVF.vfPvGnd
    dsimp only
    by_cases no : (lf = true ∧ r = 0) ∨ (¬ lf = true ∧ r = p.nRows - 1)
    · simp only [if_pos no]
      cases lf <;> cases bk <;> by_cases ht : t <;>
        simp only [Bool.false_eq_true, if_false, if_true, ht] <;>
        first | exact sb | exact z
    · simp only [if_neg no]
      have hidx : (if lf = true then r - 1 else r + 1) < p.nRows := by
        cases lf
        · simp only [Bool.false_eq_true, if_false]
          simp at no
          omega
        · simp only [if_true]
          omega
      have hh := hob _ hidx
      cases lf <;> cases bk <;> by_cases ht : t <;>
        simp only [Bool.false_eq_true, if_false, if_true, ht] at hh ⊢ <;>
        first | exact hh | exact z
  refine ⟨main.1.trans re, ?_⟩
  exact A.recip_bound h0 h1 S.tol S.slack S.clear S.size main.1 main.2 hla (S.long _ hb)

/-- All computed view factors between surfaces are close to the exact ones. -/
theorem vfNoSky_near (S : Scene p g emp D w c σ) (i j : ℕ) :
    |A.vfNoSky p g emp i j - PVF.vfNoSky p g emp i j| ≤ entryBound ε D w c σ := by
  classical
  have T := TOL_pos
  have eb := entryBound_nonneg h0 h1 (show 0 < w by linarith [S.tol]) S.slack S.clear S.size
  have gndSurf : ∀ r < p.nRows, ∀ s bk, ∀ a ∈ sideRefs p r s,
      List.Forall₂ (AsgNear (entryBound ε D w c σ)) (A.asgPvGndSurf p g emp r bk a)
        (PVF.asgPvGndSurf p g emp r bk a) := by
    intro r hr s bk a ha
    obtain ⟨k, sh, rfl, hk⟩ := mem_sideRefs.1 ha
    have ham : SurfRef.pv r s k sh ∈ surfaces p := mem_surfaces.2 (mem_allRefs_pv.2 ⟨hr, hk⟩)
    unfold asgPvGndSurf PVF.asgPvGndSurf
    by_cases hea : emp (.pv r s k sh)
    · rw [if_pos hea, if_pos hea]; exact List.Forall₂.nil
    · rw [if_neg hea, if_neg hea]
      have side : ∀ lf : Bool, List.Forall₂ (AsgNear (entryBound ε D w c σ)) _ _ := fun lf =>
        forall₂_flatMap (l := gndRefsSide p lf r)
          (f := fun b => if emp b then [] else
            [⟨surfIndex p (.pv r s k sh), surfIndex p b, (A.vfPvGnd (g.coords (.pv r s k sh)) r
              p.nRows (g.rot.deg > 0) (fun k => (g.row k).full) (g.coords b)
              (A.length (g.coords (.pv r s k sh))) bk lf).1⟩,
             ⟨surfIndex p b, surfIndex p (.pv r s k sh), (A.vfPvGnd (g.coords (.pv r s k sh)) r
              p.nRows (g.rot.deg > 0) (fun k => (g.row k).full) (g.coords b)
              (A.length (g.coords (.pv r s k sh))) bk lf).2⟩])
          (g := fun b => if emp b then [] else
            [⟨surfIndex p (.pv r s k sh), surfIndex p b, (PVF.vfPvGnd (g.coords (.pv r s k sh)) r
              p.nRows (g.rot.deg > 0) (fun k => (g.row k).full) (g.coords b)
              (g.coords (.pv r s k sh)).length bk lf).1⟩,
             ⟨surfIndex p b, surfIndex p (.pv r s k sh), (PVF.vfPvGnd (g.coords (.pv r s k sh)) r
              p.nRows (g.rot.deg > 0) (fun k => (g.row k).full) (g.coords b)
              (g.coords (.pv r s k sh)).length bk lf).2⟩])
          (by
            intro b hb
            have hbm : b ∈ surfaces p := mem_surfaces.2 (gndRefsSide_subset hr hb)
            obtain ⟨sh', e, z, rfl, -⟩ := (mem_gndRefsSide hr).1 hb
            by_cases heb : emp (.gnd sh' e z)
            · rw [if_pos heb, if_pos heb]; exact List.Forall₂.nil
            · rw [if_neg heb, if_neg heb]
              have n := A.pvGnd_near h0 h1 S ham hbm hea heb (g.rot.deg > 0) bk lf
              exact asg_pair n.1 n.2)
      exact List.rel_append (side true) (side false)
  have pg : List.Forall₂ (AsgNear (entryBound ε D w c σ)) (A.asgPvGnd p g emp)
      (PVF.asgPvGnd p g emp) := by
    unfold asgPvGnd PVF.asgPvGnd
    refine forall₂_flatMap fun r hr => ?_
    have hr' := List.mem_range.1 hr
    exact List.rel_append (forall₂_flatMap (gndSurf r hr' _ false))
      (forall₂_flatMap (gndSurf r hr' _ true))
  have sides : ∀ r, r + 1 < p.nRows → ∀ fb, List.Forall₂ (AsgNear (entryBound ε D w c σ))
      (A.asgPvPvSides p g emp r fb) (PVF.asgPvPvSides p g emp r fb) := by
    intro r hr fb
    unfold asgPvPvSides PVF.asgPvPvSides
    refine forall₂_flatMap fun a ha => ?_
    obtain ⟨k, sh, rfl, hk⟩ := mem_sideRefs.1 ha
    have ham : SurfRef.pv r _ k sh ∈ surfaces p :=
      mem_surfaces.2 (mem_allRefs_pv.2 ⟨by omega, hk⟩)
    by_cases hea : emp (.pv r (if fb = true then .front else .back) k sh)
    · rw [if_pos hea, if_pos hea]; exact List.Forall₂.nil
    · rw [if_neg hea, if_neg hea]
      refine forall₂_flatMap fun b hb => ?_
      obtain ⟨k', sh', rfl, hk'⟩ := mem_sideRefs.1 hb
      have hbm : SurfRef.pv (r + 1) _ k' sh' ∈ surfaces p :=
        mem_surfaces.2 (mem_allRefs_pv.2 ⟨hr, hk'⟩)
      by_cases heb : emp (.pv (r + 1) (if fb = true then .back else .front) k' sh')
      · rw [if_pos heb, if_pos heb]; exact List.Forall₂.nil
      · rw [if_neg heb, if_neg heb]
        have n := A.pvPv_near h0 h1 S ham hbm hea heb (g.rot.deg > 0) fb
        exact asg_pair n.1 n.2
  have pp : List.Forall₂ (AsgNear (entryBound ε D w c σ)) (A.asgPvPv p g emp)
      (PVF.asgPvPv p g emp) := by
    unfold asgPvPv PVF.asgPvPv
    refine forall₂_flatMap fun r hr => ?_
    have hr' := List.mem_range.1 hr
    exact List.rel_append (sides r (by omega) true) (sides r (by omega) false)
  unfold vfNoSky PVF.vfNoSky
  exact applyAsg_near pp (applyAsg_near pg fun i j => by rw [sub_self, abs_zero]; exact eb) i j

/-- The computed view factors to the sky. -/
theorem sky_near (S : Scene p g emp D w c σ) {T : SumTree}
    (hT : T.leaves = Multiset.range (nTsSurfaces p)) {a : SurfRef} (ha : a ∈ surfaces p) :
    |vfToSky p (A.vfMatrix T p g emp) a - vfToSky p (PVF.vfMatrix p g emp) a|
      ≤ nTsSurfaces p * entryBound ε D w c σ + (grow ε ^ (nTsSurfaces p + 1) - 1)
        * (1 + ∑ b ∈ surfaces p, |vfBetween p (PVF.vfMatrix p g emp) a b|
          + nTsSurfaces p * entryBound ε D w c σ) := by
  have T0 := TOL_pos
  have h1' : ε < 1 := by linarith
  have eb := entryBound_nonneg h0 h1 (show 0 < w by linarith [S.tol]) S.slack S.clear S.size
  have hm := mem_surfaces.1 ha
  have hlt := surfIndex_lt hm
  set n := nTsSurfaces p with hn
  set i := surfIndex p a with hi
  have gn := grow_pow_one h0 h1' (n + 1)
  have hsum : ∑ b ∈ surfaces p, |vfBetween p (PVF.vfMatrix p g emp) a b|
      = ∑ k ∈ Finset.range n, |PVF.vfNoSky p g emp i k| := by
    rw [hn, sum_index']
    refine Finset.sum_congr rfl fun b hb => ?_
    have := surfIndex_lt (mem_surfaces.1 hb)
    unfold vfBetween PVF.vfMatrix
    dsimp only
    rw [if_neg (by omega)]
  have pos : 0 ≤ n * entryBound ε D w c σ + (grow ε ^ (n + 1) - 1)
      * (1 + ∑ b ∈ surfaces p, |vfBetween p (PVF.vfMatrix p g emp) a b| + n * entryBound ε D w c σ) :=
    add_nonneg (by positivity) (mul_nonneg (by linarith)
      (by have := Finset.sum_nonneg fun b (_ : b ∈ surfaces p) =>
            abs_nonneg (vfBetween p (PVF.vfMatrix p g emp) a b)
          positivity))
  have l1 : (((allRefs p)[i]?.map fun a => A.length (g.coords a)).getD 0)
      = A.length (g.coords a) := by
    rw [hi, getElem?_surfIndex hm]; rfl
  have l2 : surfLen p g i = (g.coords a).length := by
    unfold surfLen
    rw [hi, getElem?_surfIndex hm]; rfl
  have e1 : vfToSky p (A.vfMatrix T p g emp) a
      = if A.length (g.coords a) > TOL then A.sub 1 (A.sum (A.vfNoSky p g emp i) T) else 0 := by
    unfold vfToSky vfMatrix
    dsimp only
    rw [if_pos ⟨rfl, hlt⟩, ← hi, l1]
  have e2 : vfToSky p (PVF.vfMatrix p g emp) a
      = if (g.coords a).length > TOL then 1 - ∑ k ∈ Finset.range n, PVF.vfNoSky p g emp i k
        else 0 := by
    unfold vfToSky PVF.vfMatrix
    dsimp only
    rw [if_pos ⟨rfl, hlt⟩, ← hi, l2]
  rw [e1, e2]
  rcases S.long a ha with hl | hl
  · obtain ⟨l1, l2⟩ := A.length_short h0 h1 hl
    rw [if_neg l1, if_neg l2, sub_self, abs_zero]
    exact pos
  · obtain ⟨t1, t2⟩ := A.length_long h0 h1 S.tol hl
    rw [if_pos t1, if_pos t2]
    have sn := (A.sum_near h0 h1' (A.vfNoSky p g emp i) T).2
    rw [hT, Multiset.card_range] at sn
    have c1 : ((Multiset.range n).map (A.vfNoSky p g emp i)).sum
        = ∑ k ∈ Finset.range n, A.vfNoSky p g emp i k := rfl
    have c2 : ((Multiset.range n).map fun k => |A.vfNoSky p g emp i k|).sum
        = ∑ k ∈ Finset.range n, |A.vfNoSky p g emp i k| := rfl
    rw [c1, c2] at sn
    have one : Near ε n (1 : ℝ) 1 1 := by
      refine ⟨?_, by norm_num⟩
      rw [sub_self, abs_zero]
      linarith [grow_pow_one h0 h1' n]
    have n1 := ((one.sub h0 h1' sn).round h0 h1' (A.sub_err _ _)).1
    have d1 : |∑ k ∈ Finset.range n, A.vfNoSky p g emp i k
        - ∑ k ∈ Finset.range n, PVF.vfNoSky p g emp i k| ≤ n * entryBound ε D w c σ := by
      rw [← Finset.sum_sub_distrib]
      refine (Finset.abs_sum_le_sum_abs _ _).trans ?_
      refine (Finset.sum_le_sum fun k _ => A.vfNoSky_near h0 h1 S i k).trans ?_
      rw [Finset.sum_const, Finset.card_range, nsmul_eq_mul]
    have d2 : ∑ k ∈ Finset.range n, |A.vfNoSky p g emp i k|
        ≤ ∑ k ∈ Finset.range n, |PVF.vfNoSky p g emp i k| + n * entryBound ε D w c σ := by
      have : ∀ k ∈ Finset.range n, |A.vfNoSky p g emp i k|
          ≤ |PVF.vfNoSky p g emp i k| + entryBound ε D w c σ := fun k _ => by
        have a1 := A.vfNoSky_near h0 h1 S i k
        have a2 := abs_sub_abs_le_abs_sub (A.vfNoSky p g emp i k) (PVF.vfNoSky p g emp i k)
        linarith
      refine (Finset.sum_le_sum this).trans ?_
      rw [Finset.sum_add_distrib, Finset.sum_const, Finset.card_range, nsmul_eq_mul]
    rw [hsum]
    have d3 := mul_le_mul_of_nonneg_left (show 1 + ∑ k ∈ Finset.range n, |A.vfNoSky p g emp i k|
      ≤ 1 + ∑ k ∈ Finset.range n, |PVF.vfNoSky p g emp i k| + n * entryBound ε D w c σ by linarith)
      (show 0 ≤ grow ε ^ (n + 1) - 1 by linarith)
    refine (abs_sub_le _ (1 - ∑ k ∈ Finset.range n, A.vfNoSky p g emp i k) _).trans ?_
    have d4 : |1 - ∑ k ∈ Finset.range n, A.vfNoSky p g emp i k
        - (1 - ∑ k ∈ Finset.range n, PVF.vfNoSky p g emp i k)| ≤ n * entryBound ε D w c σ := by
      rw [sub_sub_sub_cancel_left, abs_sub_comm]; exact d1
    linarith

/-- The computed view factors between surfaces. -/
theorem between_near (S : Scene p g emp D w c σ) (T : SumTree) {a b : SurfRef}
    (hb : b ∈ surfaces p) :
    |vfBetween p (A.vfMatrix T p g emp) a b - vfBetween p (PVF.vfMatrix p g emp) a b|
      ≤ entryBound ε D w c σ := by
  have := surfIndex_lt (mem_surfaces.1 hb)
  unfold vfBetween vfMatrix PVF.vfMatrix
  dsimp only
  rw [if_neg (by omega), if_neg (by omega)]
  exact A.vfNoSky_near h0 h1 S _ _

end Arith
end PVF

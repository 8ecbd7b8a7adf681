import Verif.Lemmas.Rounded
import Verif.Lemmas.Entries

/-! # Rounding errors of view factors -/

namespace PVF
namespace Arith
variable {ε : ℝ} (h0 : 0 ≤ ε) (h1 : ε < 1) (A : Arith ε)
include h0 h1

/-- The string with exact lengths, but with the computed decision about the obstruction. -/
theorem string_mid (P G O : Pt) (s : Bool) {σ : ℝ} (hσ : 0 ≤ σ) (ho : G.y < O.y) (hP : G.y < P.y)
    (hq : O.y ≤ P.y + σ) :
    ∃ m, Near ε 4 (A.string P G O s) m (distPt G O + distPt O P) ∧
      |m - hottelString P G O s|
        ≤ 20 * (grow ε - 1) * (distPt G O * distPt G P / (P.y - G.y))
          + 2 * (σ * distPt G O / (O.y - G.y)) := by
  have a1 := A.angle_err h0 h1 hP
  have a2 := A.angle_err h0 h1 ho
  have det := detour_slack ho hP hσ hq
  have tri : distPt P G ≤ distPt G O + distPt O P := by
    have := distPt_triangle G O P
    rwa [distPt_comm P G]
  have hL : 0 ≤ distPt G O + distPt O P := add_nonneg (distPt_nonneg _ _) (distPt_nonneg _ _)
  have hD : 0 ≤ distPt P G := distPt_nonneg _ _
  have n1 : Near ε 4 (A.add (A.dist G O) (A.dist O P)) (distPt G O + distPt O P)
      (distPt G O + distPt O P) :=
    (A.add_rel h0 h1 (A.dist_rel h0 h1 G O) (A.dist_rel h0 h1 O P) (distPt_nonneg _ _)
      (distPt_nonneg _ _)).near h0 h1 hL
  have n2 : Near ε 4 (A.dist P G) (distPt P G) (distPt G O + distPt O P) := by
    have := ((A.dist_rel h0 h1 P G).mono h0 h1 (show 3 ≤ 4 by norm_num) hD).near h0 h1 hD
    refine ⟨this.1.trans (mul_le_mul_of_nonneg_left tri ?_), this.2.trans tri⟩
    linarith [grow_pow_one h0 h1 4]
  have hr : 0 ≤ distPt G O * distPt G P / (P.y - G.y) :=
    div_nonneg (mul_nonneg (distPt_nonneg _ _) (distPt_nonneg _ _)) (by linarith)
  have hg := grow_one h0 h1
  have hso : 0 ≤ σ * distPt G O / (O.y - G.y) :=
    div_nonneg (mul_nonneg hσ (distPt_nonneg _ _)) (by linarith)
  have gap0 : 0 ≤ 20 * (grow ε - 1) * (distPt G O * distPt G P / (P.y - G.y))
      + 2 * (σ * distPt G O / (O.y - G.y)) :=
    add_nonneg (mul_nonneg (by linarith) hr) (by linarith)
  have gap : |angleX G P - angleX G O| ≤ 10 * (grow ε - 1) →
      |distPt G O + distPt O P - distPt P G|
        ≤ 20 * (grow ε - 1) * (distPt G O * distPt G P / (P.y - G.y))
          + 2 * (σ * distPt G O / (O.y - G.y)) := by
    intro h
    rw [abs_of_nonneg (by linarith)]
    have e := mul_le_mul_of_nonneg_right h hr
    have e2 : |angleX G P - angleX G O| * distPt G O * distPt G P / (P.y - G.y)
        = |angleX G P - angleX G O| * (distPt G O * distPt G P / (P.y - G.y)) := by ring
    rw [e2] at det
    linarith
  rw [abs_le] at a1 a2
  cases s
  · simp only [string, hottelString, Bool.false_eq_true, if_false]
    by_cases c : A.angle G P < A.angle G O
    · rw [if_pos c]
      refine ⟨_, n1, ?_⟩
      by_cases d : angleX G P < angleX G O
      · rw [if_pos d, sub_self, abs_zero]; exact gap0
      · rw [if_neg d]
        apply gap
        rw [abs_le]
        constructor <;> linarith [a1.1, a1.2, a2.1, a2.2]
    · rw [if_neg c]
      refine ⟨_, n2, ?_⟩
      by_cases d : angleX G P < angleX G O
      · rw [if_pos d, abs_sub_comm]
        apply gap
        rw [abs_le]
        constructor <;> linarith [a1.1, a1.2, a2.1, a2.2]
      · rw [if_neg d, sub_self, abs_zero]; exact gap0
  · simp only [string, hottelString, if_true]
    by_cases c : A.angle G P > A.angle G O
    · rw [if_pos c]
      refine ⟨_, n1, ?_⟩
      by_cases d : angleX G P > angleX G O
      · rw [if_pos d, sub_self, abs_zero]; exact gap0
      · rw [if_neg d]
        apply gap
        rw [abs_le]
        constructor <;> linarith [a1.1, a1.2, a2.1, a2.2]
    · rw [if_neg c]
      refine ⟨_, n2, ?_⟩
      by_cases d : angleX G P > angleX G O
      · rw [if_pos d, abs_sub_comm]
        apply gap
        rw [abs_le]
        constructor <;> linarith [a1.1, a1.2, a2.1, a2.2]
      · rw [if_neg d, sub_self, abs_zero]; exact gap0

/-- A computed double width. -/
theorem width2 {v w : ℝ} (hv : Rel ε 3 v w) (hw : 0 ≤ w) : Rel ε 4 (A.mul 2 v) (2 * w) := by
  have hv0 := hv.nonneg h0 h1 hw
  have e1 := rel_of_err h0 h1 (show 0 ≤ 2 * v by linarith) (by
    have := A.mul_err 2 v; rwa [abs_of_nonneg (show 0 ≤ 2 * v by linarith)] at this)
  have e2 : Rel ε 0 (2 : ℝ) 2 := by unfold Rel; simp
  have := e1.trans h0 h1 (e2.mul h0 h1 hv (by norm_num) hw)
  simpa using this

/-- The view factor formula on strings that are close to given ones. -/
theorem frac {k : ℕ} {d1 d2 l1 l2 d1' d2' l1' l2' m1 m2 m3 m4 v w : ℝ} (e1 : Near ε k d1' d1 m1)
    (e2 : Near ε k d2' d2 m2) (e3 : Near ε k l1' l1 m3) (e4 : Near ε k l2' l2 m4)
    (hv : Rel ε 3 v w) (hw : 0 < w) :
    Near ε (k + 8) (A.div (A.sub (A.sub (A.add d1' d2') l1') l2') (A.mul 2 v))
      ((d1 + d2 - l1 - l2) / (2 * w)) ((m1 + m2 + m3 + m4) / (2 * w)) := by
  have s1 := (e1.add h0 h1 e2).round h0 h1 (A.add_err _ _)
  have s2 := (s1.sub h0 h1 (e3.mono h0 h1 (Nat.le_succ k))).round h0 h1 (A.sub_err _ _)
  have s3 := (s2.sub h0 h1 (e4.mono h0 h1 (show k ≤ k + 1 + 1 by omega))).round h0 h1
    (A.sub_err _ _)
  exact (s3.div h0 h1 (A.width2 h0 h1 hv hw.le) (by linarith)).round h0 h1 (A.div_err _ _)

theorem surfSurf_near {a b : Line} {v w : ℝ} (hv : Rel ε 3 v w) (hw : 0 < w) (hv' : v > TOL)
    (hw' : w > TOL) :
    Near ε 10 (A.surfSurf a b v) (vfSurfSurf a b w) ((distPt a.b1 b.b2 + distPt a.b2 b.b1
      + (distPt a.b1 b.b1 + distPt a.b2 b.b2)) / (2 * w)) := by
  unfold surfSurf vfSurfSurf
  simp only [if_pos hv', if_pos hw']
  have d : ∀ x y : Pt, Near ε 3 (A.dist x y) (distPt x y) (distPt x y) := fun x y =>
    (A.dist_rel h0 h1 x y).near h0 h1 (distPt_nonneg _ _)
  have s1 := ((d a.b1 b.b1).add h0 h1 (d a.b2 b.b2)).round h0 h1 (A.add_err _ _)
  have s2 := ((d a.b1 b.b2).add h0 h1 (d a.b2 b.b1)).round h0 h1 (A.add_err _ _)
  have s3 := ((s2.sub h0 h1 s1).round h0 h1 (A.sub_err _ _)).abs h0 h1
  exact (s3.div h0 h1 (A.width2 h0 h1 hv hw.le) (by linarith)).round h0 h1 (A.div_err _ _)

/-- Computed view factors past an obstruction. -/
theorem hottelGnd_err {H L G1 G2 O : Pt} {v w : ℝ} {s : Bool} (hv : Rel ε 3 v w) (hw : 0 < w)
    (hv' : v > TOL) (hw' : w > TOL) {σ : ℝ} (hσ : 0 ≤ σ) (g1 : G1.y < O.y) (g2 : G2.y < O.y)
    (h1' : G1.y < H.y) (h2' : G2.y < H.y) (l1' : G1.y < L.y) (l2' : G2.y < L.y)
    (oh : O.y ≤ H.y + σ) (ol : O.y ≤ L.y + σ) :
    |A.hottelGnd H L G1 G2 O v s - vfHottelGnd H L G1 G2 O w s| ≤ (grow ε ^ 12 - 1)
      * (((distPt G1 O + distPt O H) + (distPt G1 O + distPt O L) + (distPt G2 O + distPt O H)
        + (distPt G2 O + distPt O L)) / (2 * w))
      + 20 * (grow ε - 1) * (distPt G1 O * distPt G1 H / (H.y - G1.y)
        + distPt G1 O * distPt G1 L / (L.y - G1.y) + distPt G2 O * distPt G2 H / (H.y - G2.y)
        + distPt G2 O * distPt G2 L / (L.y - G2.y)) / (2 * w)
      + 4 * (σ * distPt G1 O / (O.y - G1.y) + σ * distPt G2 O / (O.y - G2.y)) / (2 * w) := by
  obtain ⟨m1, n1, b1⟩ := A.string_mid h0 h1 H G1 O s hσ g1 h1' oh
  obtain ⟨m2, n2, b2⟩ := A.string_mid h0 h1 L G1 O s hσ g1 l1' ol
  obtain ⟨m3, n3, b3⟩ := A.string_mid h0 h1 H G2 O s hσ g2 h2' oh
  obtain ⟨m4, n4, b4⟩ := A.string_mid h0 h1 L G2 O s hσ g2 l2' ol
  have hw2 : 0 < 2 * w := by linarith
  unfold hottelGnd vfHottelGnd
  simp only [if_pos hv', if_pos hw']
  cases s
  · simp only [Bool.false_eq_true, if_false]
    have f := (A.frac h0 h1 n1 n4 n3 n2 hv hw).1
    rw [add_assoc]
    refine (abs_sub_le _ _ _).trans (add_le_add (f.trans (le_of_eq (by ring))) ?_)
    rw [← add_div, ← sub_div, abs_div, abs_of_pos hw2]
    refine div_le_div_of_nonneg_right ?_ hw2.le
    rw [abs_le] at b1 b2 b3 b4 ⊢
    constructor <;> linarith [b1.1, b1.2, b2.1, b2.2, b3.1, b3.2, b4.1, b4.2]
  · simp only [if_true]
    have f := (A.frac h0 h1 n3 n2 n1 n4 hv hw).1
    rw [add_assoc]
    refine (abs_sub_le _ _ _).trans (add_le_add (f.trans (le_of_eq (by ring))) ?_)
    rw [← add_div, ← sub_div, abs_div, abs_of_pos hw2]
    refine div_le_div_of_nonneg_right ?_ hw2.le
    rw [abs_le] at b1 b2 b3 b4 ⊢
    constructor <;> linarith [b1.1, b1.2, b2.1, b2.2, b3.1, b3.2, b4.1, b4.2]

/-- A view factor back to a row, from the one of the row. -/
theorem recip {x' x E M v w l' l : ℝ} (hx : |x' - x| ≤ E) (hM : |x| ≤ M) (hv : Rel ε 3 v w)
    (hw : 0 ≤ w) (hl : Rel ε 3 l' l) (hl0 : 0 < l) :
    |A.div (A.mul x' v) l' - x * w / l| ≤ ((grow ε ^ 8 - 1) * M + grow ε ^ 8 * E) * (w / l) := by
  have hv0 := hv.nonneg h0 h1 hw
  have n0 : Near ε 3 (x' * v) (x' * w) (|x'| * w) := by
    have := (hv.near h0 h1 hw).1
    refine ⟨?_, by rw [abs_mul, abs_of_nonneg hw]⟩
    rw [← mul_sub, abs_mul]
    calc |x'| * |v - w| ≤ |x'| * ((grow ε ^ 3 - 1) * w) :=
          mul_le_mul_of_nonneg_left this (abs_nonneg _)
      _ = _ := by ring
  have n1 := n0.round h0 h1 (A.mul_err _ _)
  have n2 := ((n1.div h0 h1 hl hl0).round h0 h1 (A.div_err _ _)).1
  have hg := grow_pow_one h0 h1 8
  have hwl : 0 ≤ w / l := by positivity
  have hx' : |x'| ≤ M + E := by
    have := abs_add_le (x' - x) x
    rw [sub_add_cancel] at this
    linarith
  refine (abs_sub_le _ (x' * w / l) _).trans ?_
  have e1 : |x' * w / l - x * w / l| ≤ E * (w / l) := by
    rw [show x' * w / l - x * w / l = (x' - x) * (w / l) by ring, abs_mul, abs_of_nonneg hwl]
    exact mul_le_mul_of_nonneg_right hx hwl
  have e2 : (grow ε ^ (3 + 1 + 3 + 1) - 1) * (|x'| * w / l)
      ≤ (grow ε ^ 8 - 1) * ((M + E) * (w / l)) := by
    rw [mul_div_assoc]
    exact mul_le_mul_of_nonneg_left (mul_le_mul_of_nonneg_right hx' hwl) (sub_nonneg.2 hg)
  refine (add_le_add (n2.trans e2) e1).trans (le_of_eq ?_)
  ring

/-- A computed sum. -/
theorem sum_near (f : ℕ → ℝ) (T : SumTree) :
    1 ≤ T.leaves.card ∧ Near ε T.leaves.card (A.sum f T) (T.leaves.map f).sum
      (T.leaves.map fun k => |f k|).sum := by
  induction T with
  | leaf k =>
    refine ⟨by simp [SumTree.leaves], ?_⟩
    have hg := grow_one h0 h1
    simp only [sum, SumTree.leaves, Multiset.map_singleton, Multiset.sum_singleton]
    refine ⟨?_, le_rfl⟩
    rw [sub_self, abs_zero]
    exact mul_nonneg (by simpa using hg) (abs_nonneg _)
  | node l r hl hr =>
    obtain ⟨cl, nl⟩ := hl
    obtain ⟨cr, nr⟩ := hr
    simp only [sum, SumTree.leaves, Multiset.map_add, Multiset.sum_add, Multiset.card_add]
    refine ⟨by omega, ?_⟩
    have n := ((nl.mono h0 h1 (show l.leaves.card ≤ l.leaves.card + r.leaves.card - 1 by omega)).add
      h0 h1 (nr.mono h0 h1 (show r.leaves.card ≤ l.leaves.card + r.leaves.card - 1 by omega))).round
      h0 h1 (A.add_err _ _)
    rwa [Nat.sub_add_cancel (by omega)] at n

end Arith
end PVF

import Verif.Spec.RoundedAoi
import Verif.Lemmas.WedgeIntegral
import Verif.Props.RoundedAbs

/-!
# View factors with AOI losses for computed angles
-/

namespace PVF

theorem sum_once {n : ℕ} {B : ℝ} (hB : 0 ≤ B) (P : ℕ → Prop) [DecidablePred P]
    (h : ∀ k l, P k → P l → k = l) : ∑ k ∈ Finset.range n, (if P k then B else 0) ≤ B := by
  by_cases hc : ∃ k ∈ Finset.range n, P k
  · obtain ⟨k, hk, hP⟩ := hc
    rw [Finset.sum_eq_single k (fun l _ hl => if_neg fun hPl => hl (h l k hPl hP)) fun h => absurd hk h, if_pos hP]
  · push Not at hc
    rw [Finset.sum_eq_zero fun k hk => if_neg (hc k hk)]
    exact hB

theorem aoiLow_inj {n k l : ℕ} {τ x : ℝ} (hn : 0 < n) (h4 : 4 * τ < 180 / n) (hk : |x - aoiLow n k| ≤ 2 * τ)
    (hl : |x - aoiLow n l| ≤ 2 * τ) : k = l := by
  have key : ∀ {k l : ℕ}, |x - aoiLow n k| ≤ 2 * τ → |x - aoiLow n l| ≤ 2 * τ → ¬ k < l := by
    intro k l hk hl h
    have h2 : aoiLow n (k + 1) ≤ aoiLow n l := aoiLow_mono h
    rw [← aoiHigh_eq] at h2
    unfold aoiHigh aoiInterval at h2
    rw [abs_le] at hk hl
    linarith
  have := key hk hl
  have := key hl hk
  omega

theorem section_le {n k : ℕ} (hk : k < n) : vfBand (aoiLow n k) (aoiHigh n k) ≤ Real.pi / (2 * n) := by
  have hn : (0 : ℝ) < n := by exact_mod_cast (Nat.zero_le k).trans_lt hk
  unfold vfBand cosd
  have h := Real.abs_cos_sub_cos_le (deg2rad (aoiLow n k)) (deg2rad (aoiHigh n k))
  have e : |deg2rad (aoiLow n k) - deg2rad (aoiHigh n k)| = Real.pi / n := by
    have : deg2rad (aoiLow n k) - deg2rad (aoiHigh n k) = -(Real.pi / n) := by
      unfold aoiHigh aoiInterval deg2rad
      field_simp
      ring
    rw [this, abs_neg, abs_of_nonneg (by positivity)]
  rw [e] at h
  have e2 : Real.pi / (2 * n) = 0.5 * (Real.pi / n) := by field_simp; norm_num
  rw [e2]
  exact mul_le_mul_of_nonneg_left h (by norm_num)

theorem TableNear.sections {tab : AoiTable} {f : ℝ → ℝ} {n : ℕ} {τ κ : ℝ} (h : TableNear tab f n τ κ) {k : ℕ}
    (hk : k < n) : |tab.low k - aoiLow n k| ≤ τ ∧ |tab.high k - aoiHigh n k| ≤ τ ∧
      |tab.integrand k - aoiIntegrand f n k| ≤ κ := by
  have e1 : aoiHigh n k = ((k : ℝ) + 1) * (180 / n) := by unfold aoiHigh aoiLow aoiInterval; ring
  have e2 : aoiMiddle n k = ((k : ℝ) + 1 / 2) * (180 / n) := by unfold aoiMiddle aoiLow aoiInterval; ring
  refine ⟨h.low k hk, by rw [e1]; exact h.high k hk, ?_⟩
  have := h.integrand k hk
  unfold aoiIntegrand
  rw [sectionVf hk, ← aoiHigh_eq, e1, e2]
  exact this

/-- C111: computed view factors of wedges with AOI losses, for computed angles: at most one section more or less
at both ends. -/
theorem C111_wedge {ε τ κ d : ℝ} (h0 : 0 ≤ ε) (h1 : ε < 1) (A : Arith ε) {n : ℕ} (hn : 0 < n) (T : SumTree)
    (hT : T.leaves = Multiset.range n) (f : ℝ → ℝ) (hf : ∀ x, 0 ≤ x → x ≤ 180 → 0 ≤ f x ∧ f x ≤ d)
    (tab : AoiTable) (ht : TableNear tab f n τ κ) (h4 : 4 * τ < 180 / n) (lo hi lo' hi' : ℝ)
    (hlo : |lo' - lo| ≤ τ) (hhi : |hi' - hi| ≤ τ) (hw : 2 * TOL ≤ hi - lo)
    (hτ : TOL ≤ (1 - ε) * (2 * TOL - 2 * τ)) :
    |A.vfAoiWedge T tab lo' hi' - vfAoiWedge f n lo hi|
      ≤ d * (Real.pi / n) + n * κ + (grow ε ^ n - 1) * (d + n * κ) := by
  classical
  have hT0 : (0 : ℝ) < TOL := by unfold TOL; norm_num
  have d0 : 0 ≤ d := (hf 0 le_rfl (by norm_num)).1.trans (hf 0 le_rfl (by norm_num)).2
  rw [wedge_eq (by linarith)]
  have notSmall : ¬ |A.sub hi' lo'| < TOL := by
    have h2 := A.sub_err hi' lo'
    rw [abs_le] at hlo hhi
    have h3 : 2 * TOL - 2 * τ ≤ hi' - lo' := by linarith
    have h5 : 0 ≤ hi' - lo' := by
      by_contra hc
      have : (1 - ε) * (2 * TOL - 2 * τ) ≤ 0 :=
        mul_nonpos_of_nonneg_of_nonpos (by linarith) (by linarith)
      linarith
    rw [abs_of_nonneg h5, abs_le] at h2
    have h6 := mul_le_mul_of_nonneg_left h3 (by linarith : 0 ≤ 1 - ε)
    have := le_abs_self (A.sub hi' lo')
    linarith
  unfold Arith.vfAoiWedge
  rw [if_neg notSmall]
  set x' := fun k => if lo' ≤ tab.high k ∧ hi' > tab.low k then tab.integrand k else 0 with hx'
  set x := fun k => if lo ≤ aoiHigh n k ∧ hi > aoiLow n k then aoiIntegrand f n k else 0 with hx
  have sN := (A.sum_near' h0 h1 x' x' (fun k => |x' k|) (j := 0) (fun k => near_self le_rfl) T).2
  rw [hT, Multiset.card_range, zero_add] at sN
  have s1 : |A.sum x' T - ∑ k ∈ Finset.range n, x' k| ≤ (grow ε ^ n - 1) * ∑ k ∈ Finset.range n, |x' k| := sN.1
  have ig : ∀ k < n, 0 ≤ aoiIntegrand f n k ∧ aoiIntegrand f n k ≤ d * vfBand (aoiLow n k) (aoiHigh n k) ∧
      aoiIntegrand f n k ≤ d * (Real.pi / (2 * n)) := fun k hk => by
    have hm := aoiMiddle_mem hk
    have hf' := hf _ hm.1 hm.2
    have b0 := vfBand_nonneg (aoiLow n k) (aoiHigh n k)
    have l1 : aoiIntegrand f n k ≤ d * vfBand (aoiLow n k) (aoiHigh n k) := mul_le_mul_of_nonneg_right hf'.2 b0
    exact ⟨mul_nonneg hf'.1 b0, l1, l1.trans (mul_le_mul_of_nonneg_left (section_le hk) d0)⟩
  have k0 : 0 ≤ κ := (abs_nonneg _).trans (ht.sections hn).2.2
  have wle : ∀ k < n, |tab.integrand k| ≤ aoiIntegrand f n k + κ := fun k hk => by
    have h2 := abs_add_le (aoiIntegrand f n k) (tab.integrand k - aoiIntegrand f n k)
    rw [add_sub_cancel, abs_of_nonneg (ig k hk).1] at h2
    linarith [(ht.sections hk).2.2]
  have s2 : ∑ k ∈ Finset.range n, |x' k| ≤ d + n * κ := by
    have : ∀ k ∈ Finset.range n, |x' k| ≤ d * vfBand (aoiLow n k) (aoiHigh n k) + κ := fun k hk => by
      have hk' := Finset.mem_range.1 hk
      have h2 := wle k hk'
      have h3 := ig k hk'
      simp only [hx']
      split_ifs
      · linarith
      · rw [abs_zero]; linarith
    refine (Finset.sum_le_sum this).trans ?_
    rw [Finset.sum_add_distrib, ← Finset.mul_sum, sum_sections hn, Finset.sum_const, Finset.card_range, nsmul_eq_mul,
      mul_one]
  have B0 : 0 ≤ d * (Real.pi / (2 * n)) := mul_nonneg d0 (by positivity)
  have s3 : |∑ k ∈ Finset.range n, x' k - ∑ k ∈ Finset.range n, x k| ≤ d * (Real.pi / n) + n * κ := by
    rw [← Finset.sum_sub_distrib]
    refine (Finset.abs_sum_le_sum_abs _ _).trans ?_
    have one : ∀ k ∈ Finset.range n, |x' k - x k|
        ≤ κ + ((if |lo - aoiLow n (k + 1)| ≤ 2 * τ then d * (Real.pi / (2 * n)) else 0)
          + (if |hi - aoiLow n k| ≤ 2 * τ then d * (Real.pi / (2 * n)) else 0)) := by
      intro k hk
      have hk' := Finset.mem_range.1 hk
      have a1 := abs_le.1 hlo
      have a2 := abs_le.1 hhi
      have a3 := abs_le.1 (ht.sections hk').1
      have a4 := abs_le.1 (ht.sections hk').2.1
      rw [aoiHigh_eq] at a4
      have i1 : 0 ≤ (if |lo - aoiLow n (k + 1)| ≤ 2 * τ then d * (Real.pi / (2 * n)) else 0) := by
        split_ifs <;> linarith
      have i2 : 0 ≤ (if |hi - aoiLow n k| ≤ 2 * τ then d * (Real.pi / (2 * n)) else 0) := by
        split_ifs <;> linarith
      have b3 := (ig k hk').2.2
      have b1 := (ig k hk').1
      have b2 := wle k hk'
      -- a section that is counted only once lies at one of the ends
      have ends : (|lo - aoiLow n (k + 1)| ≤ 2 * τ ∨ |hi - aoiLow n k| ≤ 2 * τ) →
          d * (Real.pi / (2 * n)) ≤ (if |lo - aoiLow n (k + 1)| ≤ 2 * τ then d * (Real.pi / (2 * n)) else 0)
            + (if |hi - aoiLow n k| ≤ 2 * τ then d * (Real.pi / (2 * n)) else 0) := by
        rintro (h | h)
        · rw [if_pos h]; linarith
        · rw [if_pos h]; linarith
      simp only [hx', hx, aoiHigh_eq]
      by_cases c' : lo' ≤ tab.high k ∧ hi' > tab.low k
      · by_cases c : lo ≤ aoiLow n (k + 1) ∧ hi > aoiLow n k
        · rw [if_pos c', if_pos c]
          linarith [(ht.sections hk').2.2]
        · rw [if_pos c', if_neg c, sub_zero]
          have e : |lo - aoiLow n (k + 1)| ≤ 2 * τ ∨ |hi - aoiLow n k| ≤ 2 * τ := by
            rw [not_and_or, not_le, gt_iff_lt, not_lt] at c
            rcases c with c | c
            · left; rw [abs_le]; constructor <;> linarith [c'.1]
            · right; rw [abs_le]; constructor <;> linarith [c'.2]
          linarith [ends e]
      · by_cases c : lo ≤ aoiLow n (k + 1) ∧ hi > aoiLow n k
        · rw [if_neg c', if_pos c, zero_sub, abs_neg, abs_of_nonneg b1]
          have e : |lo - aoiLow n (k + 1)| ≤ 2 * τ ∨ |hi - aoiLow n k| ≤ 2 * τ := by
            rw [not_and_or, not_le, gt_iff_lt, not_lt] at c'
            rcases c' with c' | c'
            · left; rw [abs_le]; constructor <;> linarith [c.1]
            · right; rw [abs_le]; constructor <;> linarith [c.2]
          linarith [ends e]
        · rw [if_neg c', if_neg c, sub_zero, abs_zero]
          linarith
    refine (Finset.sum_le_sum one).trans ?_
    rw [Finset.sum_add_distrib, Finset.sum_add_distrib, Finset.sum_const, Finset.card_range, nsmul_eq_mul]
    have o1 := sum_once (n := n) B0 (fun k => |lo - aoiLow n (k + 1)| ≤ 2 * τ) fun k l hk hl =>
      Nat.succ_injective (aoiLow_inj hn h4 hk hl)
    have o2 := sum_once (n := n) B0 (fun k => |hi - aoiLow n k| ≤ 2 * τ) fun k l hk hl => aoiLow_inj hn h4 hk hl
    have e : d * (Real.pi / n) = d * (Real.pi / (2 * n)) + d * (Real.pi / (2 * n)) := by
      have : (n : ℝ) ≠ 0 := by exact_mod_cast hn.ne'
      field_simp
      norm_num
    rw [e]
    linarith
  have s4 := abs_add_le (A.sum x' T - ∑ k ∈ Finset.range n, x' k)
    (∑ k ∈ Finset.range n, x' k - ∑ k ∈ Finset.range n, x k)
  rw [sub_add_sub_cancel] at s4
  have g := grow_pow_one h0 h1 n
  have s5 := mul_le_mul_of_nonneg_left s2 (by linarith : 0 ≤ grow ε ^ n - 1)
  exact s4.trans (by linarith)

/-- C111: wedges that are far smaller than the tolerance get nothing, also with rounding errors. -/
theorem C111_small {ε τ : ℝ} (h0 : 0 ≤ ε) (A : Arith ε) {n : ℕ} (T : SumTree) (f : ℝ → ℝ)
    (tab : AoiTable) (lo hi lo' hi' : ℝ) (hlo : |lo' - lo| ≤ τ) (hhi : |hi' - hi| ≤ τ) (hw : |hi - lo| ≤ TOL / 2)
    (hτ : (1 + ε) * (TOL / 2 + 2 * τ) < TOL) :
    A.vfAoiWedge T tab lo' hi' = 0 ∧ vfAoiWedge f n lo hi = 0 := by
  have hT0 : (0 : ℝ) < TOL := by unfold TOL; norm_num
  constructor
  · unfold Arith.vfAoiWedge
    refine if_pos ?_
    have h2 := A.sub_err hi' lo'
    have h3 : |hi' - lo'| ≤ TOL / 2 + 2 * τ := by
      rw [abs_le] at *
      constructor <;> linarith [hlo.1, hlo.2, hhi.1, hhi.2, hw.1, hw.2]
    have h5 := abs_add_le (hi' - lo') (A.sub hi' lo' - (hi' - lo'))
    rw [add_sub_cancel] at h5
    have h6 := mul_le_mul_of_nonneg_left h3 (by linarith : 0 ≤ 1 + ε)
    linarith
  · unfold vfAoiWedge
    exact if_pos (by linarith)

/-- C111 for angles in any order. -/
theorem C111_angles {ε τ κ d : ℝ} (h0 : 0 ≤ ε) (h1 : ε < 1) (A : Arith ε) {n : ℕ} (hn : 0 < n) (T : SumTree)
    (hT : T.leaves = Multiset.range n) (f : ℝ → ℝ) (hf : ∀ x, 0 ≤ x → x ≤ 180 → 0 ≤ f x ∧ f x ≤ d)
    (tab : AoiTable) (ht : TableNear tab f n τ κ) (h4 : 4 * τ < 180 / n) (x y x' y' : ℝ)
    (hx : |x' - x| ≤ τ) (hy : |y' - y| ≤ τ) (hw : 2 * TOL ≤ |y - x|)
    (hτ : TOL ≤ (1 - ε) * (2 * TOL - 2 * τ)) :
    |A.vfAoiAngles T tab x' y' - vfAoiAngles f n x y|
      ≤ d * (Real.pi / n) + n * κ + (grow ε ^ n - 1) * (d + n * κ) := by
  have hT0 : (0 : ℝ) < TOL := by unfold TOL; norm_num
  have hτ' : 2 * τ < 2 * TOL := by
    by_contra hc
    have : (1 - ε) * (2 * TOL - 2 * τ) ≤ 0 := mul_nonpos_of_nonneg_of_nonpos (by linarith) (by linarith)
    linarith
  have a1 := abs_le.1 hx
  have a2 := abs_le.1 hy
  unfold Arith.vfAoiAngles vfAoiAngles
  rcases le_abs'.1 hw with h | h
  · have c : ¬ x < y := by linarith
    have c' : ¬ x' < y' := by linarith
    rw [if_neg c, if_neg c, if_neg c', if_neg c']
    exact C111_wedge h0 h1 A hn T hT f hf tab ht h4 _ _ _ _ hy hx (by linarith) hτ
  · have c : x < y := by linarith
    have c' : x' < y' := by linarith
    rw [if_pos c, if_pos c, if_pos c', if_pos c']
    exact C111_wedge h0 h1 A hn T hT f hf tab ht h4 _ _ _ _ hx hy (by linarith) hτ

/-- C111 (witness).  The wedge between 0 and 90 degrees with the default of 300 sections, 10% losses and double
precision: table and angles that are wrong by 1e-9 change the view factor by less than 1%. -/
theorem C111_demo :
    let A := tooLarge (1 / 2 ^ 53) (by norm_num)
    let tab : AoiTable := ⟨fun k => k * (180 / (300 : ℕ)) - 1 / 10 ^ 9, fun k => (k + 1) * (180 / (300 : ℕ)) + 1 / 10 ^ 9,
      fun k => 9 / 10 * ((cosd (k * (180 / (300 : ℕ))) - cosd ((k + 1) * (180 / (300 : ℕ)))) / 2)⟩
    |A.vfAoiAngles (inOrder 299) tab (90 + 1 / 10 ^ 9) 0 - vfAoiAngles (fun _ => 9 / 10) 300 90 0| ≤ 1 / 100 := by
  intro A tab
  have h := C111_angles (ε := 1 / 2 ^ 53) (τ := 1 / 10 ^ 9) (κ := 0) (d := 9 / 10) (by norm_num) (by norm_num) A
    (n := 300) (by norm_num) (inOrder 299) (by rw [inOrder_leaves]) (fun _ => 9 / 10) (fun _ _ _ => by norm_num) tab
    ⟨fun k _ => by simp [tab], fun k _ => by simp [tab], fun k _ => by simp [tab]⟩ (by norm_num) 90 0
    (90 + 1 / 10 ^ 9) 0 (by norm_num) (by norm_num) (by norm_num [TOL]) (by norm_num [TOL])
  refine h.trans ?_
  have hg : grow (1 / 2 ^ 53) ^ 300 - 1 ≤ 1 / 10 ^ 6 := by
    have g1 : grow (1 / 2 ^ 53) ^ 100 ≤ 1 + 1 / 10 ^ 7 := by norm_num [grow]
    have g2 := pow_le_pow_left₀ (pow_nonneg (by norm_num [grow]) _) g1 3
    rw [← pow_mul] at g2
    have g3 : ((1 : ℝ) + 1 / 10 ^ 7) ^ 3 - 1 ≤ 1 / 10 ^ 6 := by norm_num
    linarith
  have hp := Real.pi_lt_d2
  norm_num at hg ⊢
  linarith

end PVF

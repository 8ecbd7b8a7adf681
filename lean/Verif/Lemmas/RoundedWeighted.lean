import Verif.Model.RoundedWeighted
import Verif.Spec.RoundedWeighted
import Verif.Lemmas.RoundedFast
import Verif.Props.Weighted

/-! # Rounding errors of averages -/

namespace PVF
namespace Arith
variable {ε : ℝ} (h0 : 0 ≤ ε) (h1 : ε < 1) (A : Arith ε) {α : Type*}
include h0 h1

theorem foldl_near (f' f m : α → ℝ) {j : ℕ} (l : List α) :
    (∀ a ∈ l, Near ε j (f' a) (f a) (m a)) → ∀ {acc x M : ℝ} {k : ℕ}, j ≤ k → Near ε k acc x M →
    Near ε (k + l.length) (l.foldl (fun v a => A.add v (f' a)) acc) (x + (l.map f).sum)
      (M + (l.map m).sum) := by
  induction l with
  | nil => intro _ acc x M k _ h; simpa using h
  | cons a l ih =>
    intro hf acc x M k hk h
    have n1 := (h.add h0 h1 ((hf a List.mem_cons_self).mono h0 h1 hk)).round h0 h1 (A.add_err acc _)
    have := ih (fun b hb => hf b (List.mem_cons_of_mem _ hb)) (by omega) n1
    rw [List.foldl_cons, List.map_cons, List.map_cons, List.sum_cons, List.sum_cons, List.length_cons]
    convert this using 1 <;> ring

theorem foldl_rel (f' f : α → ℝ) {j : ℕ} (l : List α) :
    (∀ a ∈ l, Rel ε j (f' a) (f a) ∧ 0 ≤ f a) → ∀ {acc x : ℝ} {k : ℕ}, j ≤ k → Rel ε k acc x → 0 ≤ x →
    Rel ε (k + l.length) (l.foldl (fun v a => A.add v (f' a)) acc) (x + (l.map f).sum) := by
  induction l with
  | nil => intro _ acc x k _ h _; simpa using h
  | cons a l ih =>
    intro hf acc x k hk h hx
    obtain ⟨r, p⟩ := hf a List.mem_cons_self
    have n1 := A.add_rel h0 h1 h (r.mono h0 h1 hk p) hx p
    have := ih (fun b hb => hf b (List.mem_cons_of_mem _ hb)) (by omega) n1 (by linarith)
    rw [List.foldl_cons, List.map_cons, List.sum_cons, List.length_cons]
    convert this using 1 <;> ring

theorem sideLength_rel (len' len : α → ℝ) (segs : List (SegColl α)) {c : ℕ}
    (hc : ∀ s ∈ segs, s.illum.length ≤ c ∧ s.shaded.length ≤ c)
    (hl : ∀ a, Rel ε 3 (len' a) (len a)) (hp : ∀ a, 0 ≤ len a) :
    Rel ε (4 + c + segs.length) (A.sideCollLength len' segs)
      ((segs.flatMap SegColl.all).map len).sum := by
  have z : ∀ k, Rel ε k (0 : ℝ) 0 := fun k => ⟨by simp, by simp⟩
  have nn : ∀ l : List α, 0 ≤ (l.map len).sum := fun l => List.sum_nonneg (by
    intro x hx
    obtain ⟨a, -, rfl⟩ := List.mem_map.1 hx
    exact hp a)
  have coll : ∀ l : List α, l.length ≤ c → Rel ε (3 + c) (A.collLength len' l) (l.map len).sum := by
    intro l hlc
    have := A.foldl_rel h0 h1 len' len (j := 3) l (fun a _ => ⟨hl a, hp a⟩) le_rfl (z 3) le_rfl
    rw [zero_add] at this
    exact this.mono h0 h1 (by omega) (nn l)
  have seg : ∀ s ∈ segs, Rel ε (4 + c) (A.segLength len' s) (s.all.map len).sum ∧
      0 ≤ (s.all.map len).sum := by
    intro s hs
    refine ⟨?_, nn _⟩
    have := A.add_rel h0 h1 (coll _ (hc s hs).1) (coll _ (hc s hs).2) (nn _) (nn _)
    rw [SegColl.all, List.map_append, List.sum_append]
    rw [show 4 + c = 3 + c + 1 by omega]
    exact this
  have := A.foldl_rel h0 h1 (A.segLength len') (fun s => (s.all.map len).sum) segs seg le_rfl (z (4 + c))
    le_rfl
  rw [zero_add] at this
  rw [sum_flatMap_map]
  exact this

theorem sideWW_near (len' len val : α → ℝ) (segs : List (SegColl α)) {c : ℕ}
    (hc : ∀ s ∈ segs, s.illum.length ≤ c ∧ s.shaded.length ≤ c)
    (hl : ∀ a, Rel ε 3 (len' a) (len a)) (hp : ∀ a, 0 ≤ len a) :
    Near ε (5 + c + segs.length) (A.sideWW len' val segs)
      ((segs.flatMap SegColl.all).map fun a => len a * val a).sum
      ((segs.flatMap SegColl.all).map fun a => len a * |val a|).sum := by
  have z : ∀ k, Near ε k (0 : ℝ) 0 0 := fun k => (near_self (by simp)).mono h0 h1 (Nat.zero_le k)
  have coll : ∀ l : List α, l.length ≤ c → Near ε (4 + c) (A.collWW len' val l)
      (l.map fun a => len a * val a).sum (l.map fun a => len a * |val a|).sum := by
    intro l hlc
    have one : ∀ a ∈ l, Near ε 4 (A.mul (len' a) (val a)) (len a * val a) (len a * |val a|) :=
      fun a _ => (((hl a).near h0 h1 (hp a)).mul h0 h1 (near_self (ε := ε) (le_refl |val a|))).round h0 h1
        (A.mul_err _ _)
    have := A.foldl_near h0 h1 _ _ _ l one le_rfl (z 4)
    rw [zero_add, zero_add] at this
    exact this.mono h0 h1 (by omega)
  have seg : ∀ s ∈ segs, Near ε (5 + c) (A.segWW len' val s) (s.all.map fun a => len a * val a).sum
      (s.all.map fun a => len a * |val a|).sum := by
    intro s hs
    have := ((coll _ (hc s hs).1).add h0 h1 (coll _ (hc s hs).2)).round h0 h1 (A.add_err _ _)
    rw [SegColl.all, List.map_append, List.sum_append, List.map_append, List.sum_append]
    rw [show 5 + c = 4 + c + 1 by omega]
    exact this
  have := A.foldl_near h0 h1 _ _ _ segs seg le_rfl (z (5 + c))
  rw [zero_add, zero_add] at this
  rw [sum_flatMap_map, sum_flatMap_map]
  exact this

end Arith

/-- Exact averages of slightly different values with slightly different weights. -/
theorem average_near {α : Type*} (l : List α) (w' w v' v : α → ℝ) {σ V e : ℝ} (hw' : ∀ a ∈ l, 0 ≤ w' a)
    (hw : ∀ a ∈ l, 0 ≤ w a)
    (hσ : ∀ a ∈ l, |w' a - w a| ≤ σ) (he : ∀ a ∈ l, |v' a - v a| ≤ e) (hV : ∀ a ∈ l, |v a| ≤ V)
    (V0 : 0 ≤ V) (hL : l.length * σ < (l.map w).sum) :
    0 < (l.map w').sum ∧
    |(l.map fun a => w' a * v' a).sum / (l.map w').sum - (l.map fun a => w a * v a).sum / (l.map w).sum|
      ≤ e + 2 * l.length * σ * V / ((l.map w).sum - l.length * σ) ∧
    (l.map fun a => w' a * |v' a|).sum ≤ (V + e) * (l.map w').sum := by
  have key : ∀ l : List α, (∀ a ∈ l, 0 ≤ w' a) → (∀ a ∈ l, 0 ≤ w a) →
      (∀ a ∈ l, |w' a - w a| ≤ σ) → (∀ a ∈ l, |v' a - v a| ≤ e) → (∀ a ∈ l, |v a| ≤ V) →
      |(l.map w').sum - (l.map w).sum| ≤ l.length * σ ∧
      |(l.map fun a => w' a * v' a).sum - (l.map fun a => w a * v a).sum|
        ≤ e * (l.map w').sum + l.length * σ * V ∧
      |(l.map fun a => w a * v a).sum| ≤ V * (l.map w).sum ∧
      (l.map fun a => w' a * |v' a|).sum ≤ (V + e) * (l.map w').sum := by
    intro l
    induction l with
    | nil => simp
    | cons a l ih =>
      intro c1 c0 c2 c3 c4
      have t : ∀ {P : α → Prop}, (∀ b ∈ a :: l, P b) → P a ∧ ∀ b ∈ l, P b := fun h =>
        ⟨h a List.mem_cons_self, fun b hb => h b (List.mem_cons_of_mem _ hb)⟩
      obtain ⟨i1, i2, i3, i4⟩ := ih (t c1).2 (t c0).2 (t c2).2 (t c3).2 (t c4).2
      have p' := (t c1).1
      have p := (t c0).1
      have q := (t c2).1
      have r := (t c3).1
      have s := (t c4).1
      simp only [List.map_cons, List.sum_cons, List.length_cons]
      push_cast
      have m1 : |w' a * (v' a - v a)| ≤ w' a * e := by
        rw [abs_mul, abs_of_nonneg p']; exact mul_le_mul_of_nonneg_left r p'
      have m2 : |(w' a - w a) * v a| ≤ σ * V := by
        rw [abs_mul]; exact mul_le_mul q s (abs_nonneg _) ((abs_nonneg _).trans q)
      have m3 : |w a * v a| ≤ w a * V := by
        rw [abs_mul, abs_of_nonneg p]; exact mul_le_mul_of_nonneg_left s p
      have m4 : w' a * |v' a| ≤ w' a * (V + e) := by
        refine mul_le_mul_of_nonneg_left ?_ p'
        have := abs_add_le (v' a - v a) (v a)
        rw [sub_add_cancel] at this
        linarith
      refine ⟨?_, ?_, ?_, by linarith⟩
      · rw [show w' a + (l.map w').sum - (w a + (l.map w).sum)
          = (w' a - w a) + ((l.map w').sum - (l.map w).sum) by ring]
        refine (abs_add_le _ _).trans ?_
        linarith
      · rw [show w' a * v' a + (l.map fun a => w' a * v' a).sum
            - (w a * v a + (l.map fun a => w a * v a).sum)
          = w' a * (v' a - v a) + (w' a - w a) * v a
            + ((l.map fun a => w' a * v' a).sum - (l.map fun a => w a * v a).sum) by ring]
        refine (abs_add_le _ _).trans ?_
        have := abs_add_le (w' a * (v' a - v a)) ((w' a - w a) * v a)
        linarith
      · refine (abs_add_le _ _).trans ?_
        linarith
  obtain ⟨k1, k2, k3, k4⟩ := key l hw' hw hσ he hV
  set L' := (l.map w').sum
  set L := (l.map w).sum
  set W' := (l.map fun a => w' a * v' a).sum
  set W := (l.map fun a => w a * v a).sum
  set S := (l.length : ℝ) * σ
  have hS : 0 ≤ S := (abs_nonneg _).trans k1
  have hL0 : 0 < L := by linarith
  have hL' : 0 < L - S := by linarith
  have hge : L - S ≤ L' := by linarith [(abs_le.1 k1).1]
  have hL'0 : 0 < L' := by linarith
  refine ⟨hL'0, ?_, k4⟩
  have e1 : W' / L' - W / L = (W' - W) / L' + W / L * ((L - L') / L') := by
    field_simp
    ring
  rw [e1]
  refine (abs_add_le _ _).trans ?_
  have a1 : |(W' - W) / L'| ≤ e + S * V / (L - S) := by
    rw [abs_div, abs_of_pos hL'0, div_le_iff₀ hL'0]
    have : S * V ≤ S * V / (L - S) * L' := by
      rw [div_mul_eq_mul_div, le_div_iff₀ hL']
      exact mul_le_mul_of_nonneg_left hge (by positivity)
    linarith
  have a2 : |W / L * ((L - L') / L')| ≤ S * V / (L - S) := by
    rw [abs_mul, abs_div, abs_div, abs_of_pos hL0, abs_of_pos hL'0, abs_sub_comm]
    have b1 : |W| / L ≤ V := by rw [div_le_iff₀ hL0]; exact k3
    have b2 : |L' - L| / L' ≤ S / (L - S) := div_le_div₀ hS k1 hL' hge
    have := mul_le_mul b1 b2 (by positivity) V0
    rw [show S * V / (L - S) = V * (S / (L - S)) by ring]
    exact this
  have : 2 * (l.length : ℝ) * σ * V / (L - S) = S * V / (L - S) + S * V / (L - S) := by
    change 2 * (l.length : ℝ) * σ * V / (L - S) = (l.length * σ) * V / (L - S) + (l.length * σ) * V / (L - S)
    ring
  rw [this]
  linarith

end PVF

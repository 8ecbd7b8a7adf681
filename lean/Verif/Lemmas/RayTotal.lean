import Verif.Lemmas.RayScene
import Mathlib.MeasureTheory.Integral.Prod
import Mathlib.MeasureTheory.Constructions.BorelSpace.Order
import Mathlib.MeasureTheory.Function.SpecialFunctions.Basic

/-!
# All light arrives somewhere or escapes

In a scene of finitely many segments covered by surfaces that overlap in finitely many points only.
-/

namespace PVF
open Real MeasureTheory

/-- Cross product. -/
def cr (u v : Pt) : ℝ := u.x * v.y - u.y * v.x

/-- From the first to the second end of a line. -/
def Line.vec (L : Line) : Pt := ⟨L.b2.x - L.b1.x, L.b2.y - L.b1.y⟩

/-- How far the ray goes to the line. -/
noncomputable def hitL (L : Line) (X d : Pt) : ℝ :=
  cr ⟨L.b1.x - X.x, L.b1.y - X.y⟩ L.vec / cr d L.vec

/-- Where the ray meets the line. -/
noncomputable def hitT (L : Line) (X d : Pt) : ℝ :=
  cr ⟨L.b1.x - X.x, L.b1.y - X.y⟩ d / cr d L.vec

theorem onSeg_along {L : Line} {X d : Pt} {l : ℝ} (hD : cr d L.vec ≠ 0) :
    OnSeg (along X d l) L ↔ l = hitL L X d ∧ 0 ≤ hitT L X d ∧ hitT L X d ≤ 1 := by
  unfold OnSeg
  have key : ∀ t, along X d l = lerp L.b1 L.b2 t ↔ l = hitL L X d ∧ t = hitT L X d := by
    intro t
    unfold hitL hitT
    rw [eq_div_iff hD, eq_div_iff hD]
    simp only [along, lerp, Pt.mk.injEq, cr, Line.vec]
    constructor
    · rintro ⟨e1, e2⟩
      constructor
      · linear_combination (L.b2.y - L.b1.y) * e1 - (L.b2.x - L.b1.x) * e2
      · linear_combination d.y * e1 - d.x * e2
    · rintro ⟨e1, e2⟩
      simp only [cr, Line.vec] at hD
      constructor <;> apply mul_right_cancel₀ hD
      · linear_combination d.x * e1 - (L.b2.x - L.b1.x) * e2
      · linear_combination d.y * e1 - (L.b2.y - L.b1.y) * e2
  simp only [key]
  constructor
  · rintro ⟨t, h0, h1, h2, rfl⟩; exact ⟨h2, h0, h1⟩
  · rintro ⟨h2, h0, h1⟩; exact ⟨_, h0, h1, h2, rfl⟩

/-- Directions in the half plane that are parallel to a vector. -/
theorem parallel_subsingleton {n e : Pt} (hn : n.x ^ 2 + n.y ^ 2 = 1) (he : e.x ≠ 0 ∨ e.y ≠ 0) :
    {a : ℝ | (-(π / 2) < a ∧ a < π / 2) ∧ cr (turn n a) e = 0}.Subsingleton := by
  rintro a ⟨⟨a1, a2⟩, ha⟩ b ⟨⟨b1, b2⟩, hb⟩
  have ca := cos_pos' a1 a2
  have cb := cos_pos' b1 b2
  simp only [cr, turn] at ha hb
  have h0 : sin (a - b) = 0 := by
    rw [sin_sub]
    have e1 : (n.x * e.y - n.y * e.x) * (sin a * cos b - cos a * sin b) = 0 := by
      linear_combination sin a * hb - sin b * ha
    have e2 : (n.x * e.x + n.y * e.y) * (sin a * cos b - cos a * sin b) = 0 := by
      linear_combination cos b * ha - cos a * hb
    rcases mul_eq_zero.1 e1 with e1 | e1
    · rcases mul_eq_zero.1 e2 with e2 | e2
      · exfalso
        have x0 : e.x = 0 := by linear_combination n.x * e2 - n.y * e1 - e.x * hn
        have y0 : e.y = 0 := by linear_combination n.y * e2 + n.x * e1 - e.y * hn
        rcases he with he | he <;> contradiction
      · exact e2
    · exact e1
  have := (sin_eq_zero_iff_of_lt_of_lt (by linarith) (by linarith)).1 h0
  linarith

/-- Directions in the half plane to a point. -/
theorem through_subsingleton {n X P : Pt} (hn : n.x ^ 2 + n.y ^ 2 = 1) :
    {a : ℝ | (-(π / 2) < a ∧ a < π / 2) ∧ ∃ l > 0, along X (turn n a) l = P}.Subsingleton := by
  rintro a ⟨⟨a1, a2⟩, l, l0, ha⟩ b ⟨⟨b1, b2⟩, k, k0, hb⟩
  have e : (P.x - X.x) ≠ 0 ∨ (P.y - X.y) ≠ 0 := by
    by_contra hc
    simp only [not_or, not_not, ne_eq] at hc
    rw [← ha] at hc
    simp only [along, add_sub_cancel_left, mul_eq_zero, l0.ne', false_or, turn] at hc
    have := cos_pos' a1 a2
    obtain ⟨e1, e2⟩ := hc
    have : cos a = 0 := by linear_combination n.x * e1 + n.y * e2 - cos a * hn
    linarith
  refine parallel_subsingleton (e := ⟨P.x - X.x, P.y - X.y⟩) hn e ⟨⟨a1, a2⟩, ?_⟩ ⟨⟨b1, b2⟩, ?_⟩
  · rw [← ha]; simp only [cr, along]; ring
  · rw [← hb]; simp only [cr, along]; ring

section
variable {κ : Type*} [DecidableEq κ]

/-- At a point: in all but finitely many directions, the ray arrives at exactly one surface or
escapes. -/
theorem ray_exactly_one {S : Finset κ} {L : κ → Line} {m : κ → Pt} {solid : Pt → Prop} {K : Set Line}
    (hK : K.Finite) (hsolid : ∀ Y, solid Y ↔ ∃ l ∈ K, OnSeg Y l)
    (hvec : ∀ l ∈ K, l.vec.x ≠ 0 ∨ l.vec.y ≠ 0) {X n : Pt} (hn : n.x ^ 2 + n.y ^ 2 = 1)
    (hin : ∀ b ∈ S, ∀ Y, OnSeg Y (L b) → solid Y)
    (hcover : ∀ a, -(π / 2) < a → a < π / 2 → (∀ l ∈ K, cr (turn n a) l.vec ≠ 0) → ∀ l > 0,
      solid (along X (turn n a) l) → ∃ b ∈ S, OnSeg (along X (turn n a) l) (L b) ∧
        (turn n a).x * (m b).x + (turn n a).y * (m b).y < 0)
    {P : Set Pt} (hP : P.Finite)
    (hover : ∀ d : Pt, (∀ l ∈ K, cr d l.vec ≠ 0) → ∀ b ∈ S, ∀ b' ∈ S, b ≠ b' → ∀ Y,
      OnSeg Y (L b) → OnSeg Y (L b') → d.x * (m b).x + d.y * (m b).y < 0 →
      d.x * (m b').x + d.y * (m b').y < 0 → Y ∈ P) :
    ∃ N : Set ℝ, N.Finite ∧ ∀ a, -(π / 2) < a → a < π / 2 → a ∉ N →
      (Escapes solid X (turn n a) ↔
        ∀ b ∈ S, ¬ Arrives solid (fun Y => OnSeg Y (L b)) (m b) X (turn n a)) ∧
      ∀ b ∈ S, ∀ b' ∈ S, b ≠ b' →
        Arrives solid (fun Y => OnSeg Y (L b)) (m b) X (turn n a) →
        ¬ Arrives solid (fun Y => OnSeg Y (L b')) (m b') X (turn n a) := by
  refine ⟨(⋃ l ∈ K, {a : ℝ | (-(π / 2) < a ∧ a < π / 2) ∧ cr (turn n a) l.vec = 0}) ∪
    ⋃ Y ∈ P, {a : ℝ | (-(π / 2) < a ∧ a < π / 2) ∧ ∃ l > 0, along X (turn n a) l = Y}, ?_, ?_⟩
  · refine Set.Finite.union (hK.biUnion fun l hl => ?_) (hP.biUnion fun Y _ => ?_)
    · exact (parallel_subsingleton hn (hvec l hl)).finite
    · exact (through_subsingleton hn).finite
  intro a a1 a2 hN
  simp only [Set.mem_union, Set.mem_iUnion, Set.mem_setOf_eq, exists_prop, not_or, not_exists,
    not_and] at hN
  obtain ⟨hN1, hN2⟩ := hN
  have hD : ∀ l ∈ K, cr (turn n a) l.vec ≠ 0 := fun l hl => hN1 l hl ⟨a1, a2⟩
  constructor
  · constructor
    · rintro hE b hb ⟨_, l, l0, hY, _⟩
      exact hE l l0 (hin b hb _ hY)
    · intro hA
      by_contra hE
      unfold Escapes at hE
      push Not at hE
      obtain ⟨l1, l10, hl1⟩ := hE
      set H : Set ℝ := {l | 0 < l ∧ solid (along X (turn n a) l)} with hH
      have hfin : H.Finite := by
        refine (hK.image fun L => hitL L X (turn n a)).subset ?_
        rintro l ⟨l0, hs⟩
        obtain ⟨L, hL, hY⟩ := (hsolid _).1 hs
        exact ⟨L, hL, ((onSeg_along (hD L hL)).1 hY).1.symm⟩
      obtain ⟨l, ⟨l0, hl⟩, hmin⟩ := hfin.exists_minimal ⟨l1, l10, hl1⟩
      obtain ⟨b, hb, hY, hdm⟩ := hcover a a1 a2 hD l l0 hl
      refine hA b hb ⟨hdm, l, l0, hY, fun k k0 kl hs => ?_⟩
      exact absurd (hmin ⟨k0, hs⟩ kl.le) (not_le.2 kl)
  · rintro b hb b' hb' hne ⟨hd, l, l0, hY, hc⟩ ⟨hd', l', l0', hY', hc'⟩
    have : l = l' := by
      rcases lt_trichotomy l l' with h | h | h
      · exact absurd (hin b hb _ hY) (hc' l l0 h)
      · exact h
      · exact absurd (hin b' hb' _ hY') (hc l' l0' h)
    subst this
    exact hN2 _ (hover _ hD b hb b' hb' hne _ hY hY' hd hd') ⟨a1, a2⟩ l l0 rfl

theorem measurable_hit (A : Line) (n : Pt) (L : Line) :
    Measurable (fun q : ℝ × ℝ => hitL L (lerp A.b1 A.b2 q.1) (turn n q.2)) ∧
    Measurable (fun q : ℝ × ℝ => hitT L (lerp A.b1 A.b2 q.1) (turn n q.2)) := by
  unfold hitL hitT cr lerp turn Line.vec
  constructor <;> simp only <;> fun_prop

/-- Directions and points from which the ray arrives, apart from directions parallel to solids. -/
def arrSet (K : Set Line) (A : Line) (n : Pt) (T : Line) (m : Pt) : Set (ℝ × ℝ) :=
  {q | (turn n q.2).x * m.x + (turn n q.2).y * m.y < 0 ∧
    0 < hitL T (lerp A.b1 A.b2 q.1) (turn n q.2) ∧
    0 ≤ hitT T (lerp A.b1 A.b2 q.1) (turn n q.2) ∧ hitT T (lerp A.b1 A.b2 q.1) (turn n q.2) ≤ 1 ∧
    ∀ L ∈ K, ¬ (0 < hitL L (lerp A.b1 A.b2 q.1) (turn n q.2) ∧
      hitL L (lerp A.b1 A.b2 q.1) (turn n q.2) < hitL T (lerp A.b1 A.b2 q.1) (turn n q.2) ∧
      0 ≤ hitT L (lerp A.b1 A.b2 q.1) (turn n q.2) ∧ hitT L (lerp A.b1 A.b2 q.1) (turn n q.2) ≤ 1)}

theorem measurableSet_arrSet {K : Set Line} (hK : K.Finite) (A : Line) (n : Pt) (T : Line) (m : Pt) :
    MeasurableSet (arrSet K A n T m) := by
  have hd : Measurable fun q : ℝ × ℝ => (turn n q.2).x * m.x + (turn n q.2).y * m.y := by
    unfold turn; simp only; fun_prop
  obtain ⟨t1, t2⟩ := measurable_hit A n T
  have hK' : MeasurableSet (⋂ L ∈ K, {q : ℝ × ℝ |
      ¬ (0 < hitL L (lerp A.b1 A.b2 q.1) (turn n q.2) ∧
      hitL L (lerp A.b1 A.b2 q.1) (turn n q.2) < hitL T (lerp A.b1 A.b2 q.1) (turn n q.2) ∧
      0 ≤ hitT L (lerp A.b1 A.b2 q.1) (turn n q.2) ∧
      hitT L (lerp A.b1 A.b2 q.1) (turn n q.2) ≤ 1)}) := by
    refine MeasurableSet.biInter hK.countable fun L _ => ?_
    obtain ⟨l1, l2⟩ := measurable_hit A n L
    exact ((measurableSet_lt measurable_const l1).inter ((measurableSet_lt l1 t1).inter
      ((measurableSet_le measurable_const l2).inter (measurableSet_le l2 measurable_const)))).compl
  have c0 : Measurable fun _ : ℝ × ℝ => (0 : ℝ) := measurable_const
  have c1 : Measurable fun _ : ℝ × ℝ => (1 : ℝ) := measurable_const
  have := (measurableSet_lt hd c0).inter ((measurableSet_lt c0 t1).inter
    ((measurableSet_le c0 t2).inter ((measurableSet_le t2 c1).inter hK')))
  convert this using 1
  ext q
  simp only [arrSet, Set.mem_setOf_eq, Set.mem_inter_iff, Set.mem_iInter]

theorem mem_arrSet {K : Set Line} {solid : Pt → Prop} (hsolid : ∀ Y, solid Y ↔ ∃ l ∈ K, OnSeg Y l)
    {A : Line} {n : Pt} {T : Line} {m : Pt} {s a : ℝ} (hD : ∀ l ∈ K, cr (turn n a) l.vec ≠ 0)
    (hT : cr (turn n a) T.vec ≠ 0) :
    (s, a) ∈ arrSet K A n T m ↔
      Arrives solid (fun Y => OnSeg Y T) m (lerp A.b1 A.b2 s) (turn n a) := by
  unfold arrSet Arrives
  simp only [Set.mem_setOf_eq, onSeg_along hT]
  refine and_congr_right fun _ => ?_
  constructor
  · rintro ⟨h0, h1, h2, h3⟩
    refine ⟨_, h0, ⟨rfl, h1, h2⟩, fun k k0 kl hs => ?_⟩
    obtain ⟨L, hL, hY⟩ := (hsolid _).1 hs
    obtain ⟨rfl, h5, h6⟩ := (onSeg_along (hD L hL)).1 hY
    exact h3 L hL ⟨k0, kl, h5, h6⟩
  · rintro ⟨l, l0, ⟨rfl, h1, h2⟩, hc⟩
    refine ⟨l0, h1, h2, fun L hL hh => ?_⟩
    exact hc _ hh.1 hh.2.1 ((hsolid _).2 ⟨L, hL, (onSeg_along (hD L hL)).2 ⟨rfl, hh.2.2⟩⟩)

/-- In a scene of finitely many segments the shares of the surfaces and of the sky add up to 1. -/
theorem ray_total {S : Finset κ} {L : κ → Line} {m : κ → Pt} {solid : Pt → Prop} {K : Set Line}
    (hK : K.Finite) (hsolid : ∀ Y, solid Y ↔ ∃ l ∈ K, OnSeg Y l)
    (hvec : ∀ l ∈ K, l.vec.x ≠ 0 ∨ l.vec.y ≠ 0) (hvecS : ∀ b ∈ S, (L b).vec.x ≠ 0 ∨ (L b).vec.y ≠ 0)
    {A : Line} {n : Pt} (hn : n.x ^ 2 + n.y ^ 2 = 1)
    (hin : ∀ b ∈ S, ∀ Y, OnSeg Y (L b) → solid Y)
    (hcover : ∀ s, 0 < s → s < 1 → ∀ a, -(π / 2) < a → a < π / 2 →
      (∀ l ∈ K, cr (turn n a) l.vec ≠ 0) → ∀ l > 0,
      solid (along (lerp A.b1 A.b2 s) (turn n a) l) →
      ∃ b ∈ S, OnSeg (along (lerp A.b1 A.b2 s) (turn n a) l) (L b) ∧
        (turn n a).x * (m b).x + (turn n a).y * (m b).y < 0)
    {P : Set Pt} (hP : P.Finite)
    (hover : ∀ d : Pt, (∀ l ∈ K, cr d l.vec ≠ 0) → ∀ b ∈ S, ∀ b' ∈ S, b ≠ b' → ∀ Y,
      OnSeg Y (L b) → OnSeg Y (L b') → d.x * (m b).x + d.y * (m b).y < 0 →
      d.x * (m b').x + d.y * (m b').y < 0 → Y ∈ P) :
    meanShare A n (Escapes solid)
      + ∑ b ∈ S, meanShare A n (Arrives solid (fun Y => OnSeg Y (L b)) (m b)) = 1 := by
  classical
  set N0 : Set ℝ := (⋃ l ∈ K, {a : ℝ | (-(π / 2) < a ∧ a < π / 2) ∧ cr (turn n a) l.vec = 0}) ∪
    ⋃ b ∈ S, {a : ℝ | (-(π / 2) < a ∧ a < π / 2) ∧ cr (turn n a) (L b).vec = 0} with hN0
  have hN0f : N0.Finite := by
    refine Set.Finite.union (hK.biUnion fun l hl => ?_)
      (Set.Finite.biUnion S.finite_toSet fun b hb => ?_)
    · exact (parallel_subsingleton hn (hvec l hl)).finite
    · exact (parallel_subsingleton hn (hvecS b hb)).finite
  have hgood : ∀ a, -(π / 2) < a → a < π / 2 → a ∉ N0 →
      (∀ l ∈ K, cr (turn n a) l.vec ≠ 0) ∧ ∀ b ∈ S, cr (turn n a) (L b).vec ≠ 0 := by
    intro a a1 a2 hN
    simp only [hN0, Set.mem_union, Set.mem_iUnion, Set.mem_setOf_eq, exists_prop, not_or, not_exists,
      not_and] at hN
    exact ⟨fun l hl => hN.1 l hl ⟨a1, a2⟩, fun b hb => hN.2 b hb ⟨a1, a2⟩⟩
  -- the measurable densities
  set G : κ → ℝ × ℝ → ℝ := fun b => (arrSet K A n (L b) (m b)).indicator fun q => cos q.2 with hG
  have hGm : ∀ b, Measurable (G b) := fun b =>
    (by fun_prop : Measurable fun q : ℝ × ℝ => cos q.2).indicator
      (measurableSet_arrSet hK A n (L b) (m b))
  have hGb : ∀ b q, ‖G b q‖ ≤ 1 := by
    intro b q
    simp only [hG, Set.indicator]
    split_ifs
    · exact abs_cos_le_one _
    · simp
  have ae_of_finite : ∀ N : Set ℝ, N.Finite → ∀ᵐ a ∂(volume : Measure ℝ), a ∉ N := fun N hN =>
    Set.Countable.ae_notMem hN.countable _
  have hpi : -(π / 2) ≤ π / 2 := by have := pi_pos; linarith
  have hshare : ∀ b ∈ S, ∀ s, lightShare n (Arrives solid (fun Y => OnSeg Y (L b)) (m b)
      (lerp A.b1 A.b2 s)) = 1 / 2 * ∫ a in (-(π / 2))..(π / 2), G b (s, a) := by
    intro b hb s
    unfold lightShare
    congr 1
    apply intervalIntegral.integral_congr_ae
    filter_upwards [ae_of_finite _ hN0f, ae_of_finite {π / 2} (Set.toFinite _)] with a ha ha' hI
    rw [Set.uIoc_of_le hpi] at hI
    obtain ⟨g1, g2⟩ := hgood a hI.1 (lt_of_le_of_ne hI.2 ha') ha
    simp only [hG, Set.indicator]
    by_cases hm : (s, a) ∈ arrSet K A n (L b) (m b)
    · rw [if_pos hm, if_pos ((mem_arrSet hsolid g1 (g2 b hb)).1 hm)]
    · rw [if_neg hm, if_neg (fun h => hm ((mem_arrSet hsolid g1 (g2 b hb)).2 h))]
  have hGint : ∀ b s, IntervalIntegrable (fun a => G b (s, a)) volume (-(π / 2)) (π / 2) := by
    intro b s
    rw [intervalIntegrable_iff]
    refine Measure.integrableOn_of_bounded (M := 1) (by simp) ?_ ?_
    · exact ((hGm b).comp measurable_prodMk_left).aestronglyMeasurable
    · exact Filter.Eventually.of_forall fun a => hGb b _
  have hesc : ∀ s, 0 < s → s < 1 → lightShare n (Escapes solid (lerp A.b1 A.b2 s))
      = 1 - ∑ b ∈ S, 1 / 2 * ∫ a in (-(π / 2))..(π / 2), G b (s, a) := by
    intro s s0 s1
    obtain ⟨N, hN, hone⟩ := ray_exactly_one hK hsolid hvec hn hin (hcover s s0 s1) hP hover
    unfold lightShare
    have : ∫ a in (-(π / 2))..(π / 2), (if Escapes solid (lerp A.b1 A.b2 s) (turn n a) then cos a else 0)
        = ∫ a in (-(π / 2))..(π / 2), (cos a - ∑ b ∈ S, G b (s, a)) := by
      apply intervalIntegral.integral_congr_ae
      filter_upwards [ae_of_finite _ hN0f, ae_of_finite _ hN,
        ae_of_finite {π / 2} (Set.toFinite _)] with a ha hb ha' hI
      rw [Set.uIoc_of_le hpi] at hI
      have hI2 := lt_of_le_of_ne hI.2 ha'
      obtain ⟨g1, g2⟩ := hgood a hI.1 hI2 ha
      obtain ⟨o1, o2⟩ := hone a hI.1 hI2 hb
      have hGv : ∀ b ∈ S, G b (s, a) = if Arrives solid (fun Y => OnSeg Y (L b)) (m b)
          (lerp A.b1 A.b2 s) (turn n a) then cos a else 0 := by
        intro b hb
        simp only [hG, Set.indicator]
        by_cases hm : (s, a) ∈ arrSet K A n (L b) (m b)
        · rw [if_pos hm, if_pos ((mem_arrSet hsolid g1 (g2 b hb)).1 hm)]
        · rw [if_neg hm, if_neg (fun h => hm ((mem_arrSet hsolid g1 (g2 b hb)).2 h))]
      rw [Finset.sum_congr rfl hGv]
      by_cases hE : Escapes solid (lerp A.b1 A.b2 s) (turn n a)
      · rw [if_pos hE, Finset.sum_eq_zero, sub_zero]
        intro b hb
        rw [if_neg (o1.1 hE b hb)]
      · rw [if_neg hE]
        rw [o1] at hE
        push Not at hE
        obtain ⟨b, hb, hA⟩ := hE
        rw [Finset.sum_eq_single b, if_pos hA, sub_self]
        · intro b' hb' hne
          rw [if_neg (o2 b hb b' hb' (Ne.symm hne) hA)]
        · intro h; exact absurd hb h
    have hs : IntervalIntegrable (fun a => ∑ b ∈ S, G b (s, a)) volume (-(π / 2)) (π / 2) := by
      have := IntervalIntegrable.sum S (f := fun b a => G b (s, a)) fun b _ => hGint b s
      have e : (∑ b ∈ S, fun a => G b (s, a)) = fun a => ∑ b ∈ S, G b (s, a) := by
        funext a; simp
      rw [e] at this
      exact this
    rw [this, intervalIntegral.integral_sub (continuous_cos.intervalIntegrable _ _) hs,
      intervalIntegral.integral_finsetSum fun b _ => hGint b s, integral_cos, ← Finset.mul_sum]
    simp only [sin_neg, sin_pi_div_two]
    ring
  -- integrate over the points
  have hFm : ∀ b, IntervalIntegrable
      (fun s => 1 / 2 * ∫ a in (-(π / 2))..(π / 2), G b (s, a)) volume 0 1 := by
    intro b
    apply IntervalIntegrable.const_mul
    rw [intervalIntegrable_iff]
    refine Measure.integrableOn_of_bounded (M := π) (by simp) ?_ ?_
    · have : StronglyMeasurable fun s => ∫ a, G b (s, a) ∂(volume.restrict (Set.Ioc (-(π / 2)) (π / 2))) :=
        (hGm b).stronglyMeasurable.integral_prod_right'
      have e : (fun s => ∫ a in (-(π / 2))..(π / 2), G b (s, a))
          = fun s => ∫ a, G b (s, a) ∂(volume.restrict (Set.Ioc (-(π / 2)) (π / 2))) := by
        funext s; rw [intervalIntegral.integral_of_le hpi]
      rw [e]
      exact this.aestronglyMeasurable
    · refine Filter.Eventually.of_forall fun s => ?_
      have := intervalIntegral.norm_integral_le_of_norm_le_const (a := -(π / 2)) (b := π / 2) (C := 1)
        (f := fun a => G b (s, a)) fun a _ => hGb b _
      rw [one_mul, abs_of_nonneg (by linarith)] at this
      linarith
  have hmean : ∀ b ∈ S, meanShare A n (Arrives solid (fun Y => OnSeg Y (L b)) (m b))
      = ∫ s in (0:ℝ)..1, 1 / 2 * ∫ a in (-(π / 2))..(π / 2), G b (s, a) := by
    intro b hb
    unfold meanShare
    simp only [hshare b hb]
  rw [Finset.sum_congr rfl hmean]
  have hsky : meanShare A n (Escapes solid)
      = ∫ s in (0:ℝ)..1, (1 - ∑ b ∈ S, 1 / 2 * ∫ a in (-(π / 2))..(π / 2), G b (s, a)) := by
    unfold meanShare
    apply intervalIntegral.integral_congr_ae
    filter_upwards [ae_of_finite {1} (Set.toFinite _)] with s hs hI
    rw [Set.uIoc_of_le zero_le_one] at hI
    exact hesc s hI.1 (lt_of_le_of_ne hI.2 hs)
  have hs : IntervalIntegrable
      (fun s => ∑ b ∈ S, 1 / 2 * ∫ a in (-(π / 2))..(π / 2), G b (s, a)) volume 0 1 := by
    have := IntervalIntegrable.sum S
      (f := fun b s => 1 / 2 * ∫ a in (-(π / 2))..(π / 2), G b (s, a)) fun b _ => hFm b
    have e : (∑ b ∈ S, fun s => 1 / 2 * ∫ a in (-(π / 2))..(π / 2), G b (s, a))
        = fun s => ∑ b ∈ S, 1 / 2 * ∫ a in (-(π / 2))..(π / 2), G b (s, a) := by
      funext a; simp
    rw [e] at this
    exact this
  rw [hsky, intervalIntegral.integral_sub (by simp) hs,
    intervalIntegral.integral_finsetSum fun b _ => hFm b]
  simp

end

end PVF

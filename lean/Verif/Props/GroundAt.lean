import Verif.Lemmas.GroundAt
import Verif.Props.Ground

/-!
# C42, C43: ground surfaces generated for a time step
-/

namespace PVF
noncomputable section

/-- No ground surface is tiny: at this time step every shadow surface is a point or longer than the
tolerance. -/
def GroundIn.NoTinyShadow (g : GroundIn) : Prop :=
  ∀ i < g.nRows, ∀ s ∈ cutSurfaces (g.shadowEl i) g.cuts, s.length = 0 ∨ TOL < s.length

theorem shadowEl_le {g : GroundIn} (ho : g.Ordered) {i : ℕ} (hi : i < g.nRows) :
    (g.shadowEl i).b1.x ≤ (g.shadowEl i).b2.x := clip_mono (ho.1 i hi)

theorem shadowEl_length {g : GroundIn} (ho : g.Ordered) {i : ℕ} (hi : i < g.nRows) :
    (g.shadowEl i).length = (g.shadowEl i).b2.x - (g.shadowEl i).b1.x :=
  ground_length (shadowEl_le ho hi)

theorem shadowEl_lt {g : GroundIn} (ho : g.Ordered) {i j : ℕ} (hij : i < j) (hj : j < g.nRows) :
    (g.shadowEl i).b2.x ≤ (g.shadowEl j).b1.x := by
  have h := GroundIn.brk_le ho (j := 2 * i + 2) (k := 2 * j + 1) (by omega) (by omega)
  have e1 : g.brk (2 * i + 2) = (g.shadowEl i).b2.x := by
    unfold GroundIn.brk
    rw [if_neg (by omega), if_neg (by omega), if_neg (by omega)]
    congr 3
    omega
  have e2 : g.brk (2 * j + 1) = (g.shadowEl j).b1.x := by
    unfold GroundIn.brk
    rw [if_neg (by omega), if_neg (by omega), if_pos (by omega)]
    congr 3
    omega
  rw [e1, e2] at h
  exact h

theorem shadow_chain {g : GroundIn} (ho : g.Ordered) (hc : g.cuts ≠ []) (ht : g.NoTinyShadow)
    (q : ℕ → ℕ → ℝ) {i : ℕ} (hi : i < g.nRows) :
    GChain (g.shadowEl i).b1.x (g.shadowEl i).b2.x
      (nonPointSurfaces (g.shadowEl i) g.cuts (q i)) := by
  rw [nonPointSurfaces_eq _ hc]
  exact (npPieces_chain (shadowEl_inGround g i) (shadowEl_le ho hi) g.cuts (q i) 0 (ht i hi)).1

/-- An element shorter than the tolerance is a point. -/
theorem shadow_zero {g : GroundIn} (ho : g.Ordered) (hc : g.cuts ≠ []) (ht : g.NoTinyShadow)
    {i : ℕ} (hi : i < g.nRows) (hn : ¬ (g.shadowEl i).length > TOL) :
    (g.shadowEl i).b1.x = (g.shadowEl i).b2.x := by
  have h1 := shadow_chain ho hc ht (fun _ _ => 0) hi
  by_contra hne
  have hlt : (g.shadowEl i).b1.x < (g.shadowEl i).b2.x :=
    lt_of_le_of_ne (shadowEl_le ho hi) hne
  obtain ⟨s, hs, -⟩ := h1.head hlt
  have hlen : TOL < s.line.length := by
    have := (List.mem_filter.1 hs).2
    simpa using this
  obtain ⟨k1, k2, k3, k4, k5⟩ := h1.mem hs
  rw [Line.length_ground (by rw [k4, k5]), abs_of_pos (by linarith)] at hlen
  rw [shadowEl_length ho hi] at hn
  linarith

theorem mem_nonPointShadows {g : GroundIn} {i : ℕ} :
    i ∈ g.nonPointShadows ↔ i < g.nRows ∧ TOL < (g.shadowEl i).length := by
  unfold GroundIn.nonPointShadows
  simp [List.mem_filter]

theorem nonPointShadows_sorted (g : GroundIn) : g.nonPointShadows.Pairwise (· < ·) := by
  unfold GroundIn.nonPointShadows
  exact List.Pairwise.filter _ List.pairwise_lt_range

theorem nonPoint_lt {g : GroundIn} (ho : g.Ordered) {i : ℕ} (hi : i ∈ g.nonPointShadows) :
    (g.shadowEl i).b1.x < (g.shadowEl i).b2.x := by
  have hT := TOL_pos
  obtain ⟨h1, h2⟩ := mem_nonPointShadows.1 hi
  rw [shadowEl_length ho h1] at h2
  linarith

/-- Sum over the elements that are not points. -/
theorem sum_nonPoint {g : GroundIn} (ho : g.Ordered) (hc : g.cuts ≠ []) (ht : g.NoTinyShadow) :
    (g.nonPointShadows.map fun i => (g.shadowEl i).length).sum = g.shadedLength := by
  unfold GroundIn.nonPointShadows GroundIn.shadedLength
  have : ∀ l : List ℕ, (∀ i ∈ l, i < g.nRows) →
      ((l.filter fun i => decide ((g.shadowEl i).length > TOL)).map
        fun i => (g.shadowEl i).length).sum = (l.map fun i => (g.shadowEl i).length).sum := by
    intro l hl
    induction l with
    | nil => rfl
    | cons i l ih =>
      have ih' := ih fun j hj => hl j (List.mem_cons_of_mem _ hj)
      rw [List.filter_cons]
      split_ifs with h
      · rw [List.map_cons, List.sum_cons, ih', List.map_cons, List.sum_cons]
      · rw [ih', List.map_cons, List.sum_cons, shadowEl_length ho (hl i List.mem_cons_self),
          shadow_zero ho hc ht (hl i List.mem_cons_self) (by simpa using h)]
        ring
  convert this (List.range g.nRows) (fun i hi => List.mem_range.1 hi) using 3

/-! ## Overlapping shadows form one chain -/

theorem elChain_concat {x z y : ℝ} {es : List (List GSurf)} {e : List GSurf} (h : ElChain x z es)
    (he : GChain z y e) (hne : e ≠ []) : ElChain x y (es ++ [e]) := by
  induction es generalizing x with
  | nil =>
    have h' : x = z := h
    subst h'
    exact ⟨hne, y, he, rfl⟩
  | cons a es ih =>
    obtain ⟨h1, w, h2, h3⟩ := h
    exact ⟨h1, w, h2, ih h3⟩

theorem overlap_adj {g : GroundIn} (hov : g.flagOverlap) {i : ℕ} (hi : i + 1 < g.nRows) :
    (g.shadowEl i).b2.x = (g.shadowEl (i + 1)).b1.x := by
  unfold GroundIn.shadowEl GroundIn.noOverlap
  simp only
  rw [if_pos ⟨hi, hov⟩]

theorem overlap_chain {g : GroundIn} (ho : g.Ordered) (hc : g.cuts ≠ []) (ht : g.NoTinyShadow)
    (hov : g.flagOverlap) (q : ℕ → ℕ → ℝ) (m : ℕ) (hm : m + 1 ≤ g.nRows) :
    ElChain (g.shadowEl 0).b1.x (g.shadowEl m).b2.x
      (((List.range (m + 1)).filter (fun i => open Classical in decide ((g.shadowEl i).length > TOL))).map
        fun i => nonPointSurfaces (g.shadowEl i) g.cuts (q i)) := by
  have step : ∀ (x : ℝ) (i : ℕ) (es : List (List GSurf)), i < g.nRows →
      ElChain x (g.shadowEl i).b1.x es →
      ElChain x (g.shadowEl i).b2.x (es ++ (([i].filter
        (fun i => open Classical in decide ((g.shadowEl i).length > TOL))).map
        fun i => nonPointSurfaces (g.shadowEl i) g.cuts (q i))) := by
    intro x i es hi h
    by_cases hl : (g.shadowEl i).length > TOL
    · have hlt : (g.shadowEl i).b1.x < (g.shadowEl i).b2.x :=
        nonPoint_lt ho (mem_nonPointShadows.2 ⟨hi, hl⟩)
      have h1 := shadow_chain ho hc ht q hi
      rw [List.filter_cons, if_pos (by simpa using hl)]
      exact elChain_concat h h1 (h1.ne_nil hlt)
    · rw [List.filter_cons, if_neg (by simpa using hl), List.filter_nil, List.map_nil, List.append_nil,
        ← shadow_zero ho hc ht hi hl]
      exact h
  induction m with
  | zero =>
    have := step (g.shadowEl 0).b1.x 0 [] (by omega) rfl
    simpa using this
  | succ m ih =>
    rw [List.range_succ, List.filter_append, List.map_append]
    apply step _ _ _ (by omega)
    rw [← overlap_adj hov (by omega)]
    exact ih (by omega)

theorem sum_overlap {g : GroundIn} (ho : g.Ordered) (hov : g.flagOverlap) (hn : 0 < g.nRows) :
    g.shadedLength = (g.shadowEl (g.nRows - 1)).b2.x - (g.shadowEl 0).b1.x := by
  have key : ∀ m, m + 1 ≤ g.nRows → ((List.range (m + 1)).map fun i => (g.shadowEl i).length).sum
      = (g.shadowEl m).b2.x - (g.shadowEl 0).b1.x := by
    intro m hm
    induction m with
    | zero => simp [shadowEl_length ho (show 0 < g.nRows by omega)]
    | succ m ih =>
      rw [List.range_succ, List.map_append, List.sum_append, ih (by omega), List.map_singleton,
        List.sum_singleton, shadowEl_length ho (by omega), ← overlap_adj hov (by omega)]
      ring
  have := key (g.nRows - 1) (by omega)
  rw [show g.nRows - 1 + 1 = g.nRows by omega] at this
  exact this

/-- The chain of all shadow surfaces when shadows overlap. -/
theorem overlap_all {g : GroundIn} (ho : g.Ordered) (hc : g.cuts ≠ []) (ht : g.NoTinyShadow)
    (hov : g.flagOverlap) (q : ℕ → ℕ → ℝ) (hn : 0 < g.nRows) :
    ElChain (g.shadowEl 0).b1.x (g.shadowEl (g.nRows - 1)).b2.x
      (g.nonPointShadows.map fun i => nonPointSurfaces (g.shadowEl i) g.cuts (q i)) := by
  have h := overlap_chain ho hc ht hov q (g.nRows - 1) (by omega)
  rw [show g.nRows - 1 + 1 = g.nRows by omega] at h
  exact h

/-- If shadows overlap, the elements cover the ground from the start of the first to the end of the
last. -/
theorem overlap_cover {g : GroundIn} (ho : g.Ordered) (hc : g.cuts ≠ []) (ht : g.NoTinyShadow)
    (hov : g.flagOverlap) (hn : 0 < g.nonPointShadows.length) (x : ℝ) :
    ((g.shadowEl 0).b1.x ≤ x ∧ x ≤ (g.shadowEl (g.nRows - 1)).b2.x) ↔
      ∃ i ∈ g.nonPointShadows, (g.shadowEl i).b1.x ≤ x ∧ x ≤ (g.shadowEl i).b2.x := by
  obtain ⟨j, hj⟩ := List.exists_mem_of_length_pos hn
  have hj' := mem_nonPointShadows.1 hj
  have hr : 0 < g.nRows := by omega
  have hch := elChain_flatten (overlap_all ho hc ht hov (fun _ _ => 0) hr)
  have hfirst : ∀ i < g.nRows, (g.shadowEl 0).b1.x ≤ (g.shadowEl i).b1.x := by
    intro i hi
    rcases Nat.eq_zero_or_pos i with rfl | h
    · exact le_rfl
    · exact (shadowEl_le ho hr).trans (shadowEl_lt ho h hi)
  have hlast : ∀ i < g.nRows, (g.shadowEl i).b2.x ≤ (g.shadowEl (g.nRows - 1)).b2.x := by
    intro i hi
    rcases Nat.lt_or_ge i (g.nRows - 1) with h | h
    · exact (shadowEl_lt ho h (by omega)).trans (shadowEl_le ho (by omega))
    · rw [show i = g.nRows - 1 by omega]
  constructor
  · rintro ⟨h1, h2⟩
    obtain ⟨s, hs, h3⟩ := hch.cover (t := x) (by
      have := nonPoint_lt ho hj
      linarith [hfirst j hj'.1, hlast j hj'.1]) h1 h2
    rw [List.mem_flatten] at hs
    obtain ⟨l, hl, hs⟩ := hs
    obtain ⟨i, hi, rfl⟩ := List.mem_map.1 hl
    obtain ⟨k1, k2, k3, -⟩ := (shadow_chain ho hc ht (fun _ _ => 0) (mem_nonPointShadows.1 hi).1).mem hs
    exact ⟨i, hi, by linarith, by linarith⟩
  · rintro ⟨i, hi, h1, h2⟩
    have := (mem_nonPointShadows.1 hi).1
    exact ⟨(hfirst i this).trans h1, h2.trans (hlast i this)⟩

/-! ## C42 -/

/-- What the list of shaded surfaces has to be: surfaces on the ground, from left to right without
overlap, covering exactly the shadows that are not points, with the shaded length as total length. -/
structure GroundIn.ShadedOk (g : GroundIn) (out : List GSurf) : Prop where
  on_ground : ∀ s ∈ out, s.line.b1.x < s.line.b2.x ∧ s.line.b1.y = Y_GROUND ∧ s.line.b2.y = Y_GROUND
  left_to_right : out.Pairwise fun s t => s.line.b2.x ≤ t.line.b1.x
  covers : ∀ x, (∃ s ∈ out, s.line.b1.x ≤ x ∧ x ≤ s.line.b2.x) ↔
    ∃ i < g.nRows, TOL < (g.shadowEl i).length ∧ (g.shadowEl i).b1.x ≤ x ∧ x ≤ (g.shadowEl i).b2.x
  total : (out.map fun s => s.line.length).sum = g.shadedLength

theorem shadedOk_flat {g : GroundIn} (ho : g.Ordered) (hc : g.cuts ≠ []) (ht : g.NoTinyShadow)
    (f : ℕ → List GSurf)
    (hf : ∀ i ∈ g.nonPointShadows, GChain (g.shadowEl i).b1.x (g.shadowEl i).b2.x (f i)) :
    g.ShadedOk (g.nonPointShadows.flatMap f) where
  on_ground := by
    intro s hs
    obtain ⟨i, hi, hs⟩ := List.mem_flatMap.1 hs
    obtain ⟨-, k2, -, k4, k5⟩ := (hf i hi).mem hs
    exact ⟨k2, k4, k5⟩
  left_to_right := by
    rw [List.pairwise_flatMap]
    refine ⟨fun i hi => (hf i hi).pairwise, ?_⟩
    refine (nonPointShadows_sorted g).imp_of_mem ?_
    intro i j hi hj hij s hs t ht'
    obtain ⟨-, -, k3, -⟩ := (hf i hi).mem hs
    obtain ⟨m1, -⟩ := (hf j hj).mem ht'
    exact k3.trans ((shadowEl_lt ho hij (mem_nonPointShadows.1 hj).1).trans m1)
  covers := by
    intro x
    constructor
    · rintro ⟨s, hs, h1, h2⟩
      obtain ⟨i, hi, hs⟩ := List.mem_flatMap.1 hs
      obtain ⟨k1, -, k3, -⟩ := (hf i hi).mem hs
      obtain ⟨q1, q2⟩ := mem_nonPointShadows.1 hi
      exact ⟨i, q1, q2, k1.trans h1, h2.trans k3⟩
    · rintro ⟨i, hi, hl, h1, h2⟩
      have hm := mem_nonPointShadows.2 ⟨hi, hl⟩
      obtain ⟨s, hs, h3⟩ := (hf i hm).cover (nonPoint_lt ho hm) h1 h2
      exact ⟨s, List.mem_flatMap.2 ⟨i, hm, hs⟩, h3⟩
  total := by
    rw [← sum_nonPoint ho hc ht]
    have : ∀ l : List ℕ, (∀ i ∈ l, i ∈ g.nonPointShadows) →
        ((l.flatMap f).map fun s => s.line.length).sum
          = (l.map fun i => (g.shadowEl i).length).sum := by
      intro l hl
      induction l with
      | nil => rfl
      | cons i l ih =>
        have hi := hl i List.mem_cons_self
        rw [List.flatMap_cons, List.map_append, List.sum_append, (hf i hi).total,
          ih fun j hj => hl j (List.mem_cons_of_mem _ hj), List.map_cons, List.sum_cons,
          shadowEl_length ho (mem_nonPointShadows.1 hi).1]
    exact this _ fun _ h => h

theorem shadedOk_chain {g : GroundIn} (ho : g.Ordered) (hc : g.cuts ≠ []) (ht : g.NoTinyShadow)
    (hov : g.flagOverlap) (hn : 0 < g.nonPointShadows.length) {out : List GSurf}
    (h : GChain (g.shadowEl 0).b1.x (g.shadowEl (g.nRows - 1)).b2.x out) : g.ShadedOk out := by
  obtain ⟨j, hj⟩ := List.exists_mem_of_length_pos hn
  have hr : 0 < g.nRows := by have := (mem_nonPointShadows.1 hj).1; omega
  refine ⟨?_, h.pairwise, ?_, by rw [h.total, sum_overlap ho hov hr]⟩
  · intro s hs
    obtain ⟨-, k2, -, k4, k5⟩ := h.mem hs
    exact ⟨k2, k4, k5⟩
  · intro x
    have hcov := overlap_cover ho hc ht hov hn
    have e : (∃ i < g.nRows, TOL < (g.shadowEl i).length ∧ (g.shadowEl i).b1.x ≤ x ∧
        x ≤ (g.shadowEl i).b2.x) ↔
        ∃ i ∈ g.nonPointShadows, (g.shadowEl i).b1.x ≤ x ∧ x ≤ (g.shadowEl i).b2.x := by
      simp only [mem_nonPointShadows, and_assoc]
    rw [e, ← hcov x]
    constructor
    · rintro ⟨s, hs, h1, h2⟩
      obtain ⟨k1, -, k3, -⟩ := h.mem hs
      exact ⟨k1.trans h1, h2.trans k3⟩
    · rintro ⟨h1, h2⟩
      refine h.cover ?_ h1 h2
      have q1 := (hcov _).2 ⟨j, hj, le_rfl, (nonPoint_lt ho hj).le⟩
      have q2 := (hcov _).2 ⟨j, hj, (nonPoint_lt ho hj).le, le_rfl⟩
      have := nonPoint_lt ho hj
      linarith [q1.1, q2.2]

/-- C42.  For all options, the shaded surfaces made for a time step lie on the ground, are ordered
from left to right, cover exactly the shadows and have the shaded length of the ground as total
length, provided that shadows are ordered and no ground surface is tiny. -/
theorem C42_shaded (g : GroundIn) (merge withCut : Bool) (q : ℕ → ℕ → ℝ) (qAll : ℝ)
    (ho : g.Ordered) (hc : g.cuts ≠ []) (ht : g.NoTinyShadow) :
    g.ShadedOk (g.shadedAt merge withCut q qAll) := by
  have hsurf : ∀ i ∈ g.nonPointShadows, GChain (g.shadowEl i).b1.x (g.shadowEl i).b2.x
      (nonPointSurfaces (g.shadowEl i) g.cuts (q i)) :=
    fun i hi => shadow_chain ho hc ht q (mem_nonPointShadows.1 hi).1
  have hone : ∀ i ∈ g.nonPointShadows, GChain (g.shadowEl i).b1.x (g.shadowEl i).b2.x
      [(⟨g.shadowEl i, qAll⟩ : GSurf)] :=
    fun i hi => ⟨rfl, rfl, nonPoint_lt ho hi, rfl⟩
  have hall : g.ShadedOk (g.nonPointShadows.map fun i => (⟨g.shadowEl i, qAll⟩ : GSurf)) := by
    have := shadedOk_flat ho hc ht _ hone
    rwa [← List.map_eq_flatMap] at this
  unfold GroundIn.shadedAt GroundIn.mergeShadowSurfaces
  dsimp only
  split_ifs with h1 h2 h3 h2 h3
  · obtain ⟨hov, hlen⟩ := h3
    have hn : 0 < g.nonPointShadows.length := by omega
    obtain ⟨j, hj⟩ := List.exists_mem_of_length_pos hn
    have hr : 0 < g.nRows := by have := (mem_nonPointShadows.1 hj).1; omega
    refine shadedOk_chain ho hc ht hov hn (mergeLoop_chain ?_ (overlap_all ho hc ht hov q hr)).1
    intro h
    rw [List.map_eq_nil_iff] at h
    rw [h] at hn
    simp at hn
  · rw [← List.flatMap_def]
    exact shadedOk_flat ho hc ht _ hsurf
  · exact shadedOk_flat ho hc ht _ hsurf
  · obtain ⟨hov, hlen⟩ := h3
    have hn : 0 < g.nonPointShadows.length := by omega
    have hne : g.nonPointShadows ≠ [] := List.length_pos_iff.1 hn
    obtain ⟨j, hj⟩ := List.exists_mem_of_length_pos hn
    have hr : 0 < g.nRows := by have := (mem_nonPointShadows.1 hj).1; omega
    refine shadedOk_chain ho hc ht hov hn ?_
    have hhead : g.nonPointShadows.headD 0 ∈ g.nonPointShadows := by
      obtain ⟨a, l, h⟩ := List.exists_cons_of_ne_nil hne
      rw [h]; simp
    have hlast : g.nonPointShadows.getLastD 0 ∈ g.nonPointShadows := by
      rw [List.getLastD_eq_getLast?, List.getLast?_eq_some_getLast hne]
      exact List.getLast_mem hne
    have hmin : ∀ i ∈ g.nonPointShadows, g.nonPointShadows.headD 0 ≤ i := by
      intro i hi
      have hs := nonPointShadows_sorted g
      obtain ⟨a, l, h⟩ := List.exists_cons_of_ne_nil hne
      rw [h] at hi hs ⊢
      rcases List.mem_cons.1 hi with rfl | hi
      · exact le_rfl
      · exact ((List.pairwise_cons.1 hs).1 i hi).le
    have hmax : ∀ i ∈ g.nonPointShadows, i ≤ g.nonPointShadows.getLastD 0 := by
      intro i hi
      have hs := nonPointShadows_sorted g
      rw [List.getLastD_eq_getLast?, List.getLast?_eq_some_getLast hne, Option.getD_some]
      rw [← List.dropLast_append_getLast hne] at hi hs
      rcases List.mem_append.1 hi with hi | hi
      · exact ((List.pairwise_append.1 hs).2.2 i hi _ (List.mem_singleton.2 rfl)).le
      · rw [List.mem_singleton.1 hi]
    have hcov := overlap_cover ho hc ht hov hn
    have hle : (g.shadowEl 0).b1.x ≤ (g.shadowEl (g.nRows - 1)).b2.x := by
      have q1 := (hcov _).2 ⟨j, hj, le_rfl, (nonPoint_lt ho hj).le⟩
      linarith [q1.1, q1.2]
    have e1 : (g.shadowEl (g.nonPointShadows.headD 0)).b1.x = (g.shadowEl 0).b1.x := by
      apply le_antisymm
      · obtain ⟨i, hi, k1, k2⟩ := (hcov _).1 ⟨le_rfl, hle⟩
        rcases Nat.eq_or_lt_of_le (hmin i hi) with h | h
        · rw [h]; exact k1
        · have := shadowEl_lt ho h (mem_nonPointShadows.1 hi).1
          linarith [nonPoint_lt ho hhead]
      · exact ((hcov _).2 ⟨_, hhead, le_rfl, (nonPoint_lt ho hhead).le⟩).1
    have e2 : (g.shadowEl (g.nonPointShadows.getLastD 0)).b2.x
        = (g.shadowEl (g.nRows - 1)).b2.x := by
      apply le_antisymm
      · exact ((hcov _).2 ⟨_, hlast, (nonPoint_lt ho hlast).le, le_rfl⟩).2
      · obtain ⟨i, hi, k1, k2⟩ := (hcov _).1 ⟨hle, le_rfl⟩
        rcases Nat.eq_or_lt_of_le (hmax i hi) with h | h
        · rw [← h]; exact k2
        · have := shadowEl_lt ho h (mem_nonPointShadows.1 hlast).1
          linarith [nonPoint_lt ho hlast]
    have hlt : (g.shadowEl 0).b1.x < (g.shadowEl (g.nRows - 1)).b2.x := by
      have q1 := (hcov _).2 ⟨j, hj, le_rfl, (nonPoint_lt ho hj).le⟩
      have q2 := (hcov _).2 ⟨j, hj, (nonPoint_lt ho hj).le, le_rfl⟩
      linarith [q1.1, q2.2, nonPoint_lt ho hj]
    refine ⟨?_, rfl, ?_, e2⟩
    · change (g.shadowEl (g.nonPointShadows.headD 0)).b1 = _
      rw [← e1]; rfl
    · change _ < (g.shadowEl (g.nonPointShadows.getLastD 0)).b2.x
      rw [e2]; exact hlt
  · exact hall
  · exact hall

/-! ## Cut points -/

theorem gchain_no_start_inside {x y : ℝ} {l : List GSurf} (h : GChain x y l) {s r : GSurf}
    (hs : s ∈ l) (hr : r ∈ l) : ¬ (s.line.b1.x < r.line.b1.x ∧ r.line.b1.x < s.line.b2.x) := by
  induction l generalizing x with
  | nil => simp at hs
  | cons a l ih =>
    obtain ⟨k1, k2, k3, k4⟩ := h
    have e1 : a.line.b1.x = x := by rw [k1]
    rintro ⟨h1, h2⟩
    rcases List.mem_cons.1 hs with rfl | hs'
    · rcases List.mem_cons.1 hr with rfl | hr'
      · exact lt_irrefl _ h1
      · have := (k4.mem hr').1
        linarith
    · rcases List.mem_cons.1 hr with rfl | hr'
      · have := (k4.mem hs').1
        linarith
      · exact ih k4 hs' hr' ⟨h1, h2⟩

theorem clipped_inner {c : XR} {t : ℝ} (h : c.clipped = t) (h1 : MIN_X < t) (h2 : t < MAX_X) :
    c = .fin t := by
  cases c with
  | negInf => simp only [XR.clipped] at h; linarith
  | posInf => simp only [XR.clipped] at h; linarith
  | fin a =>
    simp only [XR.clipped] at h
    congr 1
    rcases le_total a MAX_X with h3 | h3
    · rw [min_eq_left h3] at h
      rcases le_total a MIN_X with h4 | h4
      · rw [max_eq_left h4] at h; linarith
      · rw [max_eq_right h4] at h; exact h
    · rw [min_eq_right h3, max_eq_right MIN_lt_MAX.le] at h; linarith

theorem clipped_fin {t : ℝ} (h1 : MIN_X < t) (h2 : t < MAX_X) : (XR.fin t).clipped = t := by
  simp only [XR.clipped]
  rw [min_eq_left h2.le, max_eq_right h1.le]

/-- Surfaces of an element meet exactly at the cut points inside the element. -/
theorem shadow_breaks {g : GroundIn} (ho : g.Ordered) (hc : g.cuts ≠ []) (ht : g.NoTinyShadow)
    (hs : SortedCuts g.cuts) (q : ℕ → ℕ → ℝ) {i : ℕ} (hi : i < g.nRows) (t : ℝ) :
    (∃ s ∈ nonPointSurfaces (g.shadowEl i) g.cuts (q i),
      ∃ r ∈ nonPointSurfaces (g.shadowEl i) g.cuts (q i), s.line.b2.x = t ∧ r.line.b1.x = t) ↔
    (g.shadowEl i).b1.x < t ∧ t < (g.shadowEl i).b2.x ∧ XR.fin t ∈ g.cuts := by
  rw [← gbreak_iff (shadow_chain ho hc ht q hi) t, nonPointSurfaces_eq _ hc,
    (npPieces_chain (shadowEl_inGround g i) (shadowEl_le ho hi) g.cuts (q i) 0 (ht i hi)).2 hs t]
  have hin := shadowEl_inGround g i
  constructor
  · rintro ⟨h1, h2, c, hc, h3⟩
    have := clipped_inner h3 (lt_of_le_of_lt hin.1.1 h1) (lt_of_lt_of_le h2 hin.2.1.2)
    exact ⟨h1, h2, this ▸ hc⟩
  · rintro ⟨h1, h2, h3⟩
    exact ⟨h1, h2, _, h3, clipped_fin (lt_of_le_of_lt hin.1.1 h1) (lt_of_lt_of_le h2 hin.2.1.2)⟩

/-- C42 (merged shadows).  If shadows overlap and are merged, two shaded surfaces meet exactly at the
cut points strictly inside a shadow. -/
theorem C42_merged_breaks (g : GroundIn) (q : ℕ → ℕ → ℝ) (qAll : ℝ) (ho : g.Ordered)
    (hc : g.cuts ≠ []) (ht : g.NoTinyShadow)
    (hs : g.cuts.Pairwise fun a b => a.clipped ≤ b.clipped)
    (hov : g.flagOverlap) (hn : ∃ i j, i < j ∧ j < g.nRows ∧ TOL < (g.shadowEl i).length ∧
      TOL < (g.shadowEl j).length) (t : ℝ) :
    (∃ s ∈ g.shadedAt true true q qAll, ∃ r ∈ g.shadedAt true true q qAll,
      s.line.b2.x = t ∧ r.line.b1.x = t) ↔
    XR.fin t ∈ g.cuts ∧ ∃ i < g.nRows, (g.shadowEl i).b1.x < t ∧ t < (g.shadowEl i).b2.x := by
  obtain ⟨i0, j0, hij, hj, hli, hlj⟩ := hn
  have hi0 := mem_nonPointShadows.2 ⟨hij.trans hj, hli⟩
  have hj0 := mem_nonPointShadows.2 ⟨hj, hlj⟩
  have hlen : 1 < g.nonPointShadows.length := by
    by_contra h
    have h1 : g.nonPointShadows.length = 1 := by
      have := List.length_pos_of_mem hi0
      omega
    obtain ⟨a, ha⟩ := List.length_eq_one_iff.1 h1
    rw [ha, List.mem_singleton] at hi0 hj0
    omega
  have e : g.shadedAt true true q qAll
      = mergeLoop (g.nonPointShadows.map fun i => nonPointSurfaces (g.shadowEl i) g.cuts (q i)) := by
    unfold GroundIn.shadedAt GroundIn.mergeShadowSurfaces
    rw [if_pos rfl, if_pos rfl]
    dsimp only
    rw [if_pos ⟨hov, hlen⟩]
  have hne : (g.nonPointShadows.map fun i => nonPointSurfaces (g.shadowEl i) g.cuts (q i)) ≠ [] := by
    intro h
    rw [List.map_eq_nil_iff] at h
    rw [h] at hlen
    simp at hlen
  rw [e, (mergeLoop_chain hne (overlap_all ho hc ht hov q (by omega))).2 t]
  unfold elBreak
  constructor
  · rintro ⟨l, hl, h⟩
    obtain ⟨i, hi, rfl⟩ := List.mem_map.1 hl
    have hi' := (mem_nonPointShadows.1 hi).1
    obtain ⟨h1, h2, h3⟩ := (shadow_breaks ho hc ht hs q hi' t).1 h
    exact ⟨h3, i, hi', h1, h2⟩
  · rintro ⟨h3, i, hi, h1, h2⟩
    refine ⟨_, List.mem_map.2 ⟨i, ?_, rfl⟩, (shadow_breaks ho hc ht hs q hi t).2 ⟨h1, h2, h3⟩⟩
    refine mem_nonPointShadows.2 ⟨hi, ?_⟩
    by_contra hl
    have := shadow_zero ho hc ht hi hl
    linarith

/-- C42 (not merged).  If shadows are not merged, no cut point lies strictly inside a shaded
surface. -/
theorem C42_unmerged_cut (g : GroundIn) (merge : Bool) (q : ℕ → ℕ → ℝ) (qAll : ℝ) (ho : g.Ordered)
    (hc : g.cuts ≠ []) (ht : g.NoTinyShadow)
    (hs : g.cuts.Pairwise fun a b => a.clipped ≤ b.clipped)
    (hov : merge = false ∨ ¬ g.flagOverlap) {s : GSurf} (hmem : s ∈ g.shadedAt merge true q qAll)
    {c : ℝ} (hcut : XR.fin c ∈ g.cuts) : ¬ (s.line.b1.x < c ∧ c < s.line.b2.x) := by
  have e : g.shadedAt merge true q qAll
      = g.nonPointShadows.flatMap fun i => nonPointSurfaces (g.shadowEl i) g.cuts (q i) := by
    unfold GroundIn.shadedAt GroundIn.mergeShadowSurfaces
    rw [if_pos rfl]
    dsimp only
    rcases hov with rfl | h
    · rw [if_neg (by simp)]
    · simp only [h, false_and, if_false, ← List.flatMap_def, ite_self]
  rw [e] at hmem
  obtain ⟨i, hi, hs'⟩ := List.mem_flatMap.1 hmem
  have hi' := (mem_nonPointShadows.1 hi).1
  have hch := shadow_chain ho hc ht q hi'
  obtain ⟨k1, k2, k3, -⟩ := hch.mem hs'
  rintro ⟨h1, h2⟩
  obtain ⟨-, -, r, hr, -, h4⟩ := (shadow_breaks ho hc ht hs q hi' c).2 ⟨by linarith, by linarith, hcut⟩
  exact gchain_no_start_inside hch hs' hr (by rw [h4]; exact ⟨h1, h2⟩)

/-- C42 (cut points).  A cut point can only lie strictly inside a shaded surface if the surfaces of
overlapping shadows were merged and the cut point coincides with the boundary between two shadows. -/
theorem C42_cut_points (g : GroundIn) (merge : Bool) (q : ℕ → ℕ → ℝ) (qAll : ℝ) (ho : g.Ordered)
    (hc : g.cuts ≠ []) (ht : g.NoTinyShadow)
    (hs : g.cuts.Pairwise fun a b => a.clipped ≤ b.clipped)
    {s : GSurf} (hmem : s ∈ g.shadedAt merge true q qAll)
    {c : ℝ} (hcut : XR.fin c ∈ g.cuts) (h1 : s.line.b1.x < c) (h2 : c < s.line.b2.x) :
    merge = true ∧ g.flagOverlap ∧ ∃ i, i + 1 < g.nRows ∧ c = (g.shadowEl i).b2.x := by
  have hm : merge = true ∧ g.flagOverlap := by
    by_contra h
    refine C42_unmerged_cut g merge q qAll ho hc ht hs ?_ hmem hcut ⟨h1, h2⟩
    cases merge with
    | false => exact Or.inl rfl
    | true => exact Or.inr fun k => h ⟨rfl, k⟩
  obtain ⟨rfl, hov⟩ := hm
  refine ⟨rfl, hov, ?_⟩
  by_cases hlen : 1 < g.nonPointShadows.length
  · have hn : 0 < g.nonPointShadows.length := by omega
    obtain ⟨j, hj⟩ := List.exists_mem_of_length_pos hn
    have hr : 0 < g.nRows := by have := (mem_nonPointShadows.1 hj).1; omega
    have e : g.shadedAt true true q qAll
        = mergeLoop (g.nonPointShadows.map fun i => nonPointSurfaces (g.shadowEl i) g.cuts (q i)) := by
      unfold GroundIn.shadedAt GroundIn.mergeShadowSurfaces
      rw [if_pos rfl, if_pos rfl]
      dsimp only
      rw [if_pos ⟨hov, hlen⟩]
    have hne : (g.nonPointShadows.map fun i => nonPointSurfaces (g.shadowEl i) g.cuts (q i)) ≠ [] := by
      intro h
      rw [List.map_eq_nil_iff] at h
      rw [h] at hlen
      simp at hlen
    obtain ⟨hch, hbr⟩ := mergeLoop_chain hne (overlap_all ho hc ht hov q hr)
    rw [e] at hmem
    obtain ⟨k1, k2, k3, -⟩ := hch.mem hmem
    obtain ⟨i, hi, m1, m2⟩ := (overlap_cover ho hc ht hov hn c).1 ⟨by linarith, by linarith⟩
    have hi' := (mem_nonPointShadows.1 hi).1
    by_cases hin : (g.shadowEl i).b1.x < c ∧ c < (g.shadowEl i).b2.x
    · obtain ⟨-, -, r, hr, -, h4⟩ := (hbr c).2 ⟨_, List.mem_map.2 ⟨i, hi, rfl⟩,
        (shadow_breaks ho hc ht hs q hi' c).2 ⟨hin.1, hin.2, hcut⟩⟩
      exact absurd ⟨by rw [h4]; exact h1, by rw [h4]; exact h2⟩
        (gchain_no_start_inside hch hmem hr)
    · rcases eq_or_lt_of_le m1 with h5 | h5
      · rcases Nat.eq_zero_or_pos i with rfl | h0
        · linarith
        · refine ⟨i - 1, by omega, ?_⟩
          rw [overlap_adj hov (i := i - 1) (by omega), show i - 1 + 1 = i by omega]
          exact h5.symm
      · have h6 : c = (g.shadowEl i).b2.x := by
          by_contra h7
          exact hin ⟨h5, lt_of_le_of_ne m2 h7⟩
        refine ⟨i, ?_, h6⟩
        by_contra h8
        rw [show g.nRows - 1 = i by omega] at k3
        linarith
  · exfalso
    have e : g.shadedAt true true q qAll = g.shadedAt false true q qAll := by
      unfold GroundIn.shadedAt GroundIn.mergeShadowSurfaces
      simp [hlen, List.flatMap_def]
    rw [e] at hmem
    exact C42_unmerged_cut g false q qAll ho hc ht hs (Or.inl rfl) hmem hcut ⟨h1, h2⟩

end
end PVF

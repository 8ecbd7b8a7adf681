import Verif.Model.GroundAt
import Verif.Lemmas.GroundGeom

/-!
# Chains of adjacent ground surfaces; the merging loop
-/

namespace PVF
noncomputable section

/-- Adjacent surfaces of positive length on the ground, from `x` to `y`. -/
def GChain : ℝ → ℝ → List GSurf → Prop
  | x, y, [] => x = y
  | x, y, s :: l => s.line.b1 = ⟨x, Y_GROUND⟩ ∧ s.line.b2 = ⟨s.line.b2.x, Y_GROUND⟩ ∧
      x < s.line.b2.x ∧ GChain s.line.b2.x y l

theorem gchain_append {x y : ℝ} {l m : List GSurf} :
    GChain x y (l ++ m) ↔ ∃ z, GChain x z l ∧ GChain z y m := by
  induction l generalizing x with
  | nil => simp [GChain]
  | cons s l ih =>
    simp only [List.cons_append, GChain, ih]
    constructor
    · rintro ⟨h1, h2, h3, z, h4, h5⟩
      exact ⟨z, ⟨h1, h2, h3, h4⟩, h5⟩
    · rintro ⟨z, ⟨h1, h2, h3, h4⟩, h5⟩
      exact ⟨h1, h2, h3, z, h4, h5⟩

theorem GChain.le {x y : ℝ} {l : List GSurf} (h : GChain x y l) : x ≤ y := by
  induction l generalizing x with
  | nil => exact le_of_eq h
  | cons s l ih => exact h.2.2.1.le.trans (ih h.2.2.2)

theorem GChain.mem {x y : ℝ} {l : List GSurf} (h : GChain x y l) {s : GSurf} (hs : s ∈ l) :
    x ≤ s.line.b1.x ∧ s.line.b1.x < s.line.b2.x ∧ s.line.b2.x ≤ y ∧
      s.line.b1.y = Y_GROUND ∧ s.line.b2.y = Y_GROUND := by
  induction l generalizing x with
  | nil => simp at hs
  | cons t l ih =>
    obtain ⟨h1, h2, h3, h4⟩ := h
    rcases List.mem_cons.1 hs with rfl | hs
    · have e1 : s.line.b1.x = x := by rw [h1]
      refine ⟨e1.ge, by rw [e1]; exact h3, h4.le, by rw [h1], by rw [h2]⟩
    · obtain ⟨k1, k2⟩ := ih h4 hs
      exact ⟨h3.le.trans k1, k2⟩

theorem GChain.pairwise {x y : ℝ} {l : List GSurf} (h : GChain x y l) :
    l.Pairwise fun s t => s.line.b2.x ≤ t.line.b1.x := by
  induction l generalizing x with
  | nil => exact List.Pairwise.nil
  | cons s l ih =>
    rw [List.pairwise_cons]
    exact ⟨fun t ht => (h.2.2.2.mem ht).1, ih h.2.2.2⟩

theorem GChain.total {x y : ℝ} {l : List GSurf} (h : GChain x y l) :
    (l.map fun s => s.line.length).sum = y - x := by
  induction l generalizing x with
  | nil => simp [show x = y from h]
  | cons s l ih =>
    obtain ⟨h1, h2, h3, h4⟩ := h
    rw [List.map_cons, List.sum_cons, ih h4, Line.length_ground (by rw [h1, h2]), h1]
    simp only
    rw [abs_of_pos (by linarith)]
    ring

theorem GChain.cover {x y : ℝ} {l : List GSurf} (h : GChain x y l) {t : ℝ} (h0 : x < y)
    (h1 : x ≤ t) (h2 : t ≤ y) : ∃ s ∈ l, s.line.b1.x ≤ t ∧ t ≤ s.line.b2.x := by
  induction l generalizing x with
  | nil => exact absurd h0 (by rw [show x = y from h]; exact lt_irrefl _)
  | cons s l ih =>
    obtain ⟨k1, k2, k3, k4⟩ := h
    rcases le_or_gt t s.line.b2.x with ht | ht
    · exact ⟨s, List.mem_cons_self, by rw [k1]; exact h1, ht⟩
    · obtain ⟨r, hr, hr'⟩ := ih k4 (lt_of_lt_of_le ht h2) ht.le
      exact ⟨r, List.mem_cons_of_mem _ hr, hr'⟩

/-- Points strictly between `x` and `y` where two surfaces of a chain meet: starts of surfaces. -/
def gbreak (x : ℝ) (l : List GSurf) (t : ℝ) : Prop := x < t ∧ ∃ s ∈ l, s.line.b1.x = t

theorem gbreak_iff {x y : ℝ} {l : List GSurf} (h : GChain x y l) (t : ℝ) :
    gbreak x l t ↔ ∃ s ∈ l, ∃ r ∈ l, s.line.b2.x = t ∧ r.line.b1.x = t := by
  induction l generalizing x with
  | nil => simp [gbreak]
  | cons a l ih =>
    obtain ⟨k1, k2, k3, k4⟩ := h
    have e1 : a.line.b1.x = x := by rw [k1]
    constructor
    · rintro ⟨hx, r, hr, e⟩
      rcases List.mem_cons.1 hr with rfl | hr
      · rw [e1] at e; linarith
      · rcases eq_or_ne a.line.b2.x t with h5 | h5
        · exact ⟨a, List.mem_cons_self, r, List.mem_cons_of_mem _ hr, h5, e⟩
        · have := (k4.mem hr).1
          rw [e] at this
          obtain ⟨s, hs, r, hr, h6⟩ := (ih k4).1 ⟨lt_of_le_of_ne this h5, r, hr, e⟩
          exact ⟨s, List.mem_cons_of_mem _ hs, r, List.mem_cons_of_mem _ hr, h6⟩
    · rintro ⟨s, hs, r, hr, h5, h6⟩
      refine ⟨?_, r, hr, h6⟩
      rcases List.mem_cons.1 hs with rfl | hs
      · rw [← h5]; exact k3
      · obtain ⟨q1, q2, -⟩ := k4.mem hs
        linarith

/-! ## The merging loop -/

/-- Replace the first surface by its merger with the carried one. -/
def mergeHead (c : Option GSurf) : List GSurf → List GSurf
  | [] => []
  | s :: l => mergeWith c s :: l

theorem mergeSteps_mid (lastEl : Bool) (n : ℕ) (mid : List GSurf) (k : ℕ) (hk : 0 < k)
    (hn : k + mid.length < n) (st : List GSurf × Option GSurf) :
    (mid.zipIdx k).foldl (mergeSurfStep lastEl n) st = (st.1 ++ mid, st.2) := by
  induction mid generalizing k st with
  | nil => simp
  | cons s mid ih =>
    rw [List.length_cons] at hn
    rw [List.zipIdx_cons, List.foldl_cons, ih (k + 1) (by omega) (by omega)]
    have : mergeSurfStep lastEl n st (s, k) = (st.1 ++ [s], st.2) := by
      unfold mergeSurfStep
      rw [if_neg (by dsimp only; omega), if_neg (by dsimp only; omega)]
    rw [this]
    simp

theorem mergeEl_eq (lastEl : Bool) (st : List GSurf × Option GSurf) (surfs : List GSurf)
    (h : surfs ≠ []) :
    mergeEl lastEl st surfs =
      if lastEl then (st.1 ++ mergeHead st.2 surfs, st.2)
      else (st.1 ++ (mergeHead st.2 surfs).dropLast, (mergeHead st.2 surfs).getLast?) := by
  obtain ⟨s, rest, rfl⟩ := List.exists_cons_of_ne_nil h
  rcases List.eq_nil_or_concat rest with rfl | ⟨mid, last, rfl⟩
  · unfold mergeEl mergeSurfStep mergeHead
    cases lastEl <;> simp
  · unfold mergeEl mergeHead
    rw [List.concat_eq_append, List.zipIdx_cons, List.foldl_cons, List.zipIdx_append, List.foldl_append,
      mergeSteps_mid lastEl _ mid _ (by omega) (by simp; omega)]
    have e1 : mergeSurfStep lastEl (s :: (mid ++ [last])).length st (s, 0)
        = (st.1 ++ [mergeWith st.2 s], st.2) := by
      unfold mergeSurfStep
      rw [if_neg (by simp), if_pos rfl]
    rw [e1]
    have e2 : (0 + 1 + mid.length) = (s :: (mid ++ [last])).length - 1 := by simp; omega
    simp only [List.zipIdx_cons, List.zipIdx_nil, List.foldl_cons, List.foldl_nil]
    unfold mergeSurfStep
    rw [if_pos e2]
    have e3 : ¬ (0 + 1 + mid.length = 0) := by omega
    have e4 : (mergeWith st.2 s :: (mid ++ [last])).dropLast = mergeWith st.2 s :: mid := by
      rw [← List.cons_append, List.dropLast_concat]
    have e5 : (mergeWith st.2 s :: (mid ++ [last])).getLast? = some last := by
      rw [← List.cons_append, List.getLast?_concat]
    cases lastEl <;> simp [e3, e4, e5]

/-- The state of the loop after a chain of surfaces from `x` to `z`. -/
def MergeInv (x z : ℝ) (st : List GSurf × Option GSurf) : Prop :=
  match st.2 with
  | none => st.1 = [] ∧ x = z
  | some c => GChain x z (st.1 ++ [c])

/-- Break points of the state. -/
def stBreak (x : ℝ) (st : List GSurf × Option GSurf) (t : ℝ) : Prop := gbreak x (st.1 ++ st.2.toList) t

theorem mergeHead_chain {x z w : ℝ} {st : List GSurf × Option GSurf} {surfs : List GSurf}
    (hinv : MergeInv x z st) (hc : GChain z w surfs) (hne : surfs ≠ []) :
    GChain x w (st.1 ++ mergeHead st.2 surfs) ∧
    ∀ t, gbreak x (st.1 ++ mergeHead st.2 surfs) t ↔ stBreak x st t ∨ gbreak z surfs t := by
  obtain ⟨s, rest, rfl⟩ := List.exists_cons_of_ne_nil hne
  obtain ⟨out, carry⟩ := st
  unfold MergeInv at hinv
  obtain ⟨k1, k2, k3, k4⟩ := hc
  have e1 : s.line.b1.x = z := by rw [k1]
  cases carry with
  | none =>
    obtain ⟨h1, rfl⟩ := hinv
    dsimp only at h1
    subst h1
    refine ⟨⟨k1, k2, k3, k4⟩, fun t => ?_⟩
    simp [mergeHead, mergeWith, stBreak, gbreak]
  | some c =>
    dsimp only at hinv
    obtain ⟨u, hu, hcc⟩ := gchain_append.1 hinv
    obtain ⟨c1, c2, c3, c4⟩ := hcc
    have c4' : c.line.b2.x = z := c4
    constructor
    · refine gchain_append.2 ⟨u, hu, ?_⟩
      refine ⟨c1, k2, ?_, k4⟩
      change u < s.line.b2.x
      linarith
    · intro t
      simp only [mergeHead, mergeWith, stBreak, gbreak, Option.toList_some, List.mem_append, List.mem_cons,
        List.not_mem_nil, or_false, or_and_right, exists_or, exists_eq_left]
      have hxz : x ≤ u := hu.le
      constructor
      · rintro ⟨hx, h | h | h⟩
        · exact Or.inl ⟨hx, Or.inl h⟩
        · exact Or.inl ⟨hx, Or.inr h⟩
        · obtain ⟨r, hr, h⟩ := h
          have := (k4.mem hr).1
          exact Or.inr ⟨by linarith, Or.inr ⟨r, hr, h⟩⟩
      · rintro (⟨hx, h | h⟩ | ⟨hz, h | h⟩)
        · exact ⟨hx, Or.inl h⟩
        · exact ⟨hx, Or.inr (Or.inl h)⟩
        · linarith
        · exact ⟨by linarith, Or.inr (Or.inr h)⟩

theorem mergeEl_inv {x z w : ℝ} {st : List GSurf × Option GSurf} {surfs : List GSurf}
    (hinv : MergeInv x z st) (hc : GChain z w surfs) (hne : surfs ≠ []) :
    MergeInv x w (mergeEl false st surfs) ∧
    ∀ t, stBreak x (mergeEl false st surfs) t ↔ stBreak x st t ∨ gbreak z surfs t := by
  obtain ⟨h1, h2⟩ := mergeHead_chain hinv hc hne
  rw [mergeEl_eq _ _ _ hne, if_neg (by simp)]
  have hne' : mergeHead st.2 surfs ≠ [] := by
    obtain ⟨s, rest, rfl⟩ := List.exists_cons_of_ne_nil hne
    simp [mergeHead]
  have e := List.dropLast_append_getLast hne'
  have e2 : (mergeHead st.2 surfs).getLast? = some ((mergeHead st.2 surfs).getLast hne') :=
    List.getLast?_eq_some_getLast hne'
  rw [e2]
  constructor
  · unfold MergeInv
    dsimp only
    rw [List.append_assoc, e]
    exact h1
  · intro t
    rw [← h2 t]
    unfold stBreak
    dsimp only
    rw [Option.toList_some, List.append_assoc, e]

/-- Elements whose surfaces are chains, one after the other from `x` to `y`. -/
def ElChain : ℝ → ℝ → List (List GSurf) → Prop
  | x, y, [] => x = y
  | x, y, e :: es => e ≠ [] ∧ ∃ z, GChain x z e ∧ ElChain z y es

theorem elChain_flatten {x y : ℝ} {es : List (List GSurf)} (h : ElChain x y es) :
    GChain x y es.flatten := by
  induction es generalizing x with
  | nil => exact h
  | cons e es ih =>
    obtain ⟨-, z, h1, h2⟩ := h
    rw [List.flatten_cons]
    exact gchain_append.2 ⟨z, h1, ih h2⟩

theorem ElChain.le {x y : ℝ} {es : List (List GSurf)} (h : ElChain x y es) : x ≤ y :=
  (elChain_flatten h).le

/-- Break points inside elements. -/
def elBreak (es : List (List GSurf)) (t : ℝ) : Prop :=
  ∃ e ∈ es, ∃ s ∈ e, ∃ r ∈ e, s.line.b2.x = t ∧ r.line.b1.x = t

theorem mergeFold {x z y : ℝ} {es : List (List GSurf)} (n k : ℕ) (hn : k + es.length = n)
    (hne : es ≠ [])
    {st : List GSurf × Option GSurf} (hinv : MergeInv x z st) (h : ElChain z y es) :
    let out := ((es.zipIdx k).foldl (fun st e => mergeEl (decide (e.2 = n - 1)) st e.1) st).1
    GChain x y out ∧ ∀ t, gbreak x out t ↔ stBreak x st t ∨ elBreak es t := by
  induction es generalizing z k st with
  | nil => exact absurd rfl hne
  | cons e es ih =>
    obtain ⟨hne', w, h1, h2⟩ := h
    dsimp only
    rw [List.zipIdx_cons, List.foldl_cons]
    rw [List.length_cons] at hn
    dsimp only
    by_cases hes : es = []
    · subst hes
      have hk : k = n - 1 := by simp at hn; omega
      rw [decide_eq_true hk, List.zipIdx_nil, List.foldl_nil, mergeEl_eq _ _ _ hne', if_pos rfl]
      obtain ⟨q1, q2⟩ := mergeHead_chain hinv h1 hne'
      have h2' : w = y := h2
      subst h2'
      refine ⟨q1, fun t => ?_⟩
      rw [q2 t, gbreak_iff h1 t]
      simp [elBreak]
    · have hk : ¬ k = n - 1 := by
        have := List.length_pos_iff.2 hes
        omega
      rw [decide_eq_false hk]
      obtain ⟨q1, q2⟩ := mergeEl_inv hinv h1 hne'
      obtain ⟨r1, r2⟩ := ih (k + 1) (by omega) hes q1 h2
      refine ⟨r1, fun t => ?_⟩
      rw [r2 t, q2 t, gbreak_iff h1 t]
      simp only [elBreak, List.mem_cons, or_and_right, exists_or, exists_eq_left]
      exact or_assoc

theorem mergeLoop_chain {x y : ℝ} {es : List (List GSurf)} (hne : es ≠ []) (h : ElChain x y es) :
    GChain x y (mergeLoop es) ∧
    ∀ t, (∃ s ∈ mergeLoop es, ∃ r ∈ mergeLoop es, s.line.b2.x = t ∧ r.line.b1.x = t) ↔ elBreak es t := by
  obtain ⟨h1, h2⟩ := mergeFold (st := ([], none)) es.length 0 (by simp) hne
    (show MergeInv x x ([], none) from ⟨rfl, rfl⟩) h
  have h1' : GChain x y (mergeLoop es) := h1
  refine ⟨h1', fun t => ?_⟩
  rw [← gbreak_iff h1' t]
  have := h2 t
  unfold stBreak at this
  simp only [Option.toList_none, List.append_nil] at this
  rw [show gbreak x (mergeLoop es) t ↔ _ from this]
  simp [gbreak]

/-! ## Surfaces of one element -/

theorem GChain.eq_nil {x : ℝ} {l : List GSurf} (h : GChain x x l) : l = [] := by
  cases l with
  | nil => rfl
  | cons s l => exact absurd h.2.2.2.le (not_le.2 h.2.2.1)

theorem GChain.ne_nil {x y : ℝ} {l : List GSurf} (h : GChain x y l) (hxy : x < y) : l ≠ [] := by
  rintro rfl
  exact absurd h hxy.ne

theorem GChain.head {x y : ℝ} {l : List GSurf} (h : GChain x y l) (hxy : x < y) :
    ∃ s ∈ l, s.line.b1.x = x := by
  cases l with
  | nil => exact absurd h hxy.ne
  | cons s l => exact ⟨s, List.mem_cons_self, by rw [h.1]⟩

/-- Numbered pieces that are not points. -/
def npPieces (l : Line) (cs : List XR) (q : ℕ → ℝ) (k : ℕ) : List GSurf :=
  open Classical in
  (((cutSurfaces l cs).zipIdx k).map fun s => (⟨s.1, q s.2⟩ : GSurf)).filter
    fun s => s.line.length > TOL

theorem npPieces_nil (l : Line) (q : ℕ → ℝ) (k : ℕ) :
    npPieces l [] q k = if l.length > TOL then [⟨l, q k⟩] else [] := by
  unfold npPieces cutSurfaces
  simp only [List.zipIdx_cons, List.zipIdx_nil, List.map_cons, List.map_nil, List.filter_cons,
    List.filter_nil, decide_eq_true_eq]

theorem npPieces_cons (l : Line) (c : XR) (cs : List XR) (q : ℕ → ℝ) (k : ℕ) :
    npPieces l (c :: cs) q k = if (coordsLeftOfCut l c).length > TOL
      then ⟨coordsLeftOfCut l c, q k⟩ :: npPieces (coordsRightOfCut l c) cs q (k + 1)
      else npPieces (coordsRightOfCut l c) cs q (k + 1) := by
  unfold npPieces
  rw [cutSurfaces]
  simp only [List.zipIdx_cons, List.map_cons, List.filter_cons, decide_eq_true_eq]

theorem lineInGround_eq {l : Line} (h : LineInGround l) :
    l = ⟨⟨l.b1.x, Y_GROUND⟩, ⟨l.b2.x, Y_GROUND⟩⟩ := by
  obtain ⟨-, -, h1, h2⟩ := h
  obtain ⟨⟨a, b⟩, ⟨c, d⟩⟩ := l
  dsimp only at h1 h2
  rw [h1, h2]

theorem ground_length {a b : ℝ} (h : a ≤ b) :
    (⟨⟨a, Y_GROUND⟩, ⟨b, Y_GROUND⟩⟩ : Line).length = b - a := by
  rw [Line.length_ground rfl, abs_of_nonneg (by simpa using h)]

theorem npPieces_chain {l : Line} (h : LineInGround l) (hle : l.b1.x ≤ l.b2.x) (cs : List XR)
    (q : ℕ → ℝ) (k : ℕ) (ht : ∀ s ∈ cutSurfaces l cs, s.length = 0 ∨ TOL < s.length) :
    GChain l.b1.x l.b2.x (npPieces l cs q k) ∧
    (SortedCuts cs → ∀ t, gbreak l.b1.x (npPieces l cs q k) t ↔
      l.b1.x < t ∧ t < l.b2.x ∧ ∃ c ∈ cs, c.clipped = t) := by
  have hT := TOL_pos
  induction cs generalizing l k with
  | nil =>
    rw [npPieces_nil]
    have hlen : l.length = l.b2.x - l.b1.x := by
      rw [lineInGround_eq h]; exact ground_length hle
    split_ifs with hl
    · refine ⟨⟨?_, ?_, ?_, rfl⟩, ?_⟩
      · rw [lineInGround_eq h]
      · rw [lineInGround_eq h]
      · change l.b1.x < l.b2.x
        linarith
      · intro _ t
        simp only [gbreak, List.mem_singleton, exists_eq_left, List.not_mem_nil, false_and, exists_false,
          and_false, iff_false, not_and]
        intro h1 h2
        linarith
    · have h0 : l.length = 0 := by
        rcases ht l (by simp [cutSurfaces]) with h1 | h1
        · exact h1
        · exact absurd h1 hl
      refine ⟨?_, ?_⟩
      · change l.b1.x = l.b2.x
        linarith
      · intro _ t
        simp [gbreak]
  | cons c cs ih =>
    have hL := coordsLeft_eq h c
    have hR := coordsRight_eq h c
    have hRle : (coordsRightOfCut l c).b1.x ≤ (coordsRightOfCut l c).b2.x := by
      rw [hR]; exact max_le_max_right _ hle
    have hLlen : (coordsLeftOfCut l c).length = min l.b2.x c.clipped - min l.b1.x c.clipped := by
      rw [hL]; exact ground_length (min_le_min_right _ hle)
    have ht1 := ht (coordsLeftOfCut l c) (by simp [cutSurfaces])
    obtain ⟨i1, i2⟩ := ih (coordsRight_inGround h c) hRle (k + 1) (fun s hs => ht s (by
      simp only [cutSurfaces, List.mem_cons]; exact Or.inr hs))
    have eR1 : (coordsRightOfCut l c).b1.x = max l.b1.x c.clipped := by rw [hR]
    have eR2 : (coordsRightOfCut l c).b2.x = max l.b2.x c.clipped := by rw [hR]
    rw [eR1, eR2] at i1
    rw [eR1, eR2] at i2
    rw [npPieces_cons]
    set R := npPieces (coordsRightOfCut l c) cs q (k + 1)
    rcases le_or_gt l.b2.x c.clipped with hc | hc
    · -- the cut point is not left of the end
      rw [max_eq_right hc, max_eq_right (hle.trans hc)] at i1
      have hnil := i1.eq_nil
      rw [min_eq_left hc, min_eq_left (hle.trans hc)] at hLlen
      have hsort : SortedCuts (c :: cs) → ∀ t, ¬ (l.b1.x < t ∧ t < l.b2.x ∧ ∃ a ∈ c :: cs, a.clipped = t) := by
        rintro hs t ⟨-, h2, a, ha, rfl⟩
        rcases List.mem_cons.1 ha with rfl | ha
        · linarith
        · have := (List.pairwise_cons.1 hs).1 a ha
          linarith
      rw [hnil]
      split_ifs with hl
      · refine ⟨⟨?_, ?_, ?_, ?_⟩, ?_⟩
        · rw [hL, min_eq_left (hle.trans hc)]
        · rw [hL]
        · rw [hL]
          change l.b1.x < min l.b2.x c.clipped
          rw [min_eq_left hc]
          linarith
        · change (coordsLeftOfCut l c).b2.x = l.b2.x
          rw [hL]
          exact min_eq_left hc
        · intro hs t
          refine iff_of_false ?_ (hsort hs t)
          rintro ⟨h1, s, hs, h2⟩
          rw [List.mem_singleton.1 hs, hL] at h2
          change min l.b1.x c.clipped = t at h2
          rw [min_eq_left (hle.trans hc)] at h2
          linarith
      · have h0 : (coordsLeftOfCut l c).length = 0 := ht1.resolve_right hl
        refine ⟨?_, ?_⟩
        · change l.b1.x = l.b2.x
          linarith
        · intro hs t
          refine iff_of_false ?_ (hsort hs t)
          simp [gbreak]
    · rcases le_or_gt c.clipped l.b1.x with hc1 | hc1
      · -- the cut point is not right of the start
        rw [min_eq_right hc.le, min_eq_right hc1, sub_self] at hLlen
        rw [if_neg (by rw [hLlen]; exact not_lt.2 hT.le)]
        rw [max_eq_left hc.le, max_eq_left hc1] at i1
        rw [max_eq_left hc.le, max_eq_left hc1] at i2
        refine ⟨i1, fun hs t => ?_⟩
        rw [i2 (List.pairwise_cons.1 hs).2 t]
        constructor
        · rintro ⟨h1, h2, a, ha, h3⟩
          exact ⟨h1, h2, a, List.mem_cons_of_mem _ ha, h3⟩
        · rintro ⟨h1, h2, a, ha, h3⟩
          rcases List.mem_cons.1 ha with rfl | ha
          · linarith
          · exact ⟨h1, h2, a, ha, h3⟩
      · -- the cut point is inside
        rw [min_eq_right hc.le, min_eq_left hc1.le] at hLlen
        have hl : (coordsLeftOfCut l c).length > TOL := by
          rcases ht1 with h1 | h1
          · linarith
          · exact h1
        rw [if_pos hl]
        rw [max_eq_left hc.le, max_eq_right hc1.le] at i1
        rw [max_eq_left hc.le, max_eq_right hc1.le] at i2
        have eL1 : (coordsLeftOfCut l c).b1.x = l.b1.x := by rw [hL]; exact min_eq_left hc1.le
        have eL2 : (coordsLeftOfCut l c).b2.x = c.clipped := by rw [hL]; exact min_eq_right hc.le
        refine ⟨⟨?_, ?_, ?_, ?_⟩, ?_⟩
        · rw [hL, min_eq_left hc1.le]
        · rw [hL]
        · change l.b1.x < (coordsLeftOfCut l c).b2.x
          rw [eL2]; exact hc1
        · change GChain (coordsLeftOfCut l c).b2.x _ _
          rw [eL2]; exact i1
        · intro hs t
          have hs' := List.pairwise_cons.1 hs
          have i3 := i2 hs'.2 t
          unfold gbreak at i3 ⊢
          simp only [List.mem_cons, or_and_right, exists_or, exists_eq_left, eL1]
          constructor
          · rintro ⟨h1, h2 | ⟨s, hs, h2⟩⟩
            · linarith
            · have h3 := i1.mem hs
              refine ⟨h1, by linarith, ?_⟩
              rcases eq_or_lt_of_le (show c.clipped ≤ t by linarith) with h4 | h4
              · exact Or.inl h4
              · exact Or.inr (i3.1 ⟨h4, s, hs, h2⟩).2.2
          · rintro ⟨h1, h2, h3⟩
            refine ⟨h1, Or.inr ?_⟩
            have h4 : c.clipped ≤ t := by
              rcases h3 with h3 | ⟨a, ha, h3⟩
              · exact h3.le
              · rw [← h3]; exact hs'.1 a ha
            rcases eq_or_lt_of_le h4 with h5 | h5
            · obtain ⟨s, hs, e⟩ := i1.head (by linarith)
              exact ⟨s, hs, by rw [e, h5]⟩
            · have h6 : ∃ a ∈ cs, a.clipped = t := by
                rcases h3 with h3 | h3
                · linarith
                · exact h3
              exact (i3.2 ⟨h5, h2, h6⟩).2

theorem nonPointSurfaces_eq (l : Line) {cs : List XR} (hc : cs ≠ []) (q : ℕ → ℝ) :
    nonPointSurfaces l cs q = npPieces l cs q 0 := by
  unfold nonPointSurfaces elSurfaces npPieces
  rw [if_neg hc]

end
end PVF

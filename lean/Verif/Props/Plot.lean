import Verif.Spec.Plot
import Verif.Props.RowAt
import Verif.Props.GroundObj
import Verif.Props.GroundAtMore
import Verif.Props.FastDemo

/-!
# C105: drawings of the array
-/

namespace PVF

theorem centroid_mid (l : Line) : l.centroid = ⟨(l.b1.x + l.b2.x) / 2, (l.b1.y + l.b2.y) / 2⟩ := by
  simp only [Line.centroid, Pt.mk.injEq]
  constructor <;> ring

/-- A surface with a multiple of a unit vector as normal vector is drawn as it should be. -/
theorem draw_shown (label : PSurf → Option ℝ) (color : String) (withIndex : Bool) (s : PSurf) (n : Pt)
    {c : ℝ} (hc : 0 < c) (hn : n.x ^ 2 + n.y ^ 2 = 1) (hs : s.normal = ⟨c * n.x, c * n.y⟩) :
    s.draw label color withIndex = shown s.line n color (label s) withIndex := by
  have hv : vecNorm s.normal = c := by
    rw [hs, vecNorm, show (c * n.x) ^ 2 + (c * n.y) ^ 2 = c ^ 2 * (n.x ^ 2 + n.y ^ 2) by ring, hn,
      mul_one, Real.sqrt_sq hc.le]
  have hx : s.line.centroid.x + ALPHA_TEXT * (s.normal.x / vecNorm s.normal)
      = (labelPlace s.line n).x := by
    rw [hv, hs, centroid_mid, labelPlace, ALPHA_TEXT]
    field_simp
    ring
  have hy : s.line.centroid.y + ALPHA_TEXT * (s.normal.y / vecNorm s.normal)
      = (labelPlace s.line n).y := by
    rw [hv, hs, centroid_mid, labelPlace, ALPHA_TEXT]
    field_simp
    ring
  unfold PSurf.draw shown
  dsimp only
  rw [hx, hy, show MAX_X / 2 = 50 by norm_num [MAX_X]]
  cases withIndex <;> simp

theorem flatMap_forall2 {α β γ : Type*} {R : α → β → Prop} {l : List α} {m : List β}
    (h : List.Forall₂ R l m) (f : α → List γ) (g : β → List γ)
    (hfg : ∀ a ∈ l, ∀ b ∈ m, R a b → f a = g b) : l.flatMap f = m.flatMap g := by
  induction h with
  | nil => rfl
  | @cons a b _ _ h _ ih =>
    rw [List.flatMap_cons, List.flatMap_cons, hfg a List.mem_cons_self b List.mem_cons_self h,
      ih fun a ha b hb => hfg a (List.mem_cons_of_mem _ ha) b (List.mem_cons_of_mem _ hb)]

theorem side_shown {p : ArrayParams} {u : ℕ → StepIn} {q : SurfRef → ParamDict} {t i : ℕ} {s : RowSide}
    (hw : 0 < p.width) (withIndex : Bool) {l : List PSeg} {ks : List ℕ}
    (h : List.Forall₂ (SegMadeFrom p u q t i s) l ks)
    (hn : ∀ b ∈ l.flatMap PSeg.all, b.normal = sideNormal ((fitStep p (u t)).row i).full s) :
    pSideDraw rowLabel "#ff0000" "#6699cc" withIndex l
      = (keptRefs p (u t) (ks.flatMap fun k => [SurfRef.pv i s k true, SurfRef.pv i s k false])).flatMap
          (rowShown p (u t) withIndex) := by
  have one : ∀ (b : PSurf) (k : ℕ) (sh : Bool) (c : String), c = rowColor (.pv i s k sh) →
      b.normal = sideNormal ((fitStep p (u t)).row i).full s → MadeFrom p u q t b (.pv i s k sh) →
      b.draw rowLabel c withIndex = rowShown p (u t) withIndex (.pv i s k sh) := by
    intro b k sh c hc hb hm
    rw [draw_shown rowLabel c withIndex b _ hw (outward_unit (fitStep p (u t)).rot.deg (.pv i s k sh))
      (hb.trans (sideNormal_outward p (u t) i s k sh)), rowShown, hm.1, rowLabel, hm.2.2.1, hc]
    rfl
  have coll : ∀ (l : List PSurf) (k : ℕ) (sh : Bool) (c : String), c = rowColor (.pv i s k sh) →
      (∀ b ∈ l, b.normal = sideNormal ((fitStep p (u t)).row i).full s) →
      List.Forall₂ (MadeFrom p u q t) l (keptRefs p (u t) [.pv i s k sh]) →
      l.flatMap (PSurf.draw rowLabel c withIndex)
        = (keptRefs p (u t) [.pv i s k sh]).flatMap (rowShown p (u t) withIndex) := by
    intro l k sh c hc hb hl
    refine flatMap_forall2 hl _ _ fun b hbm a ha hm => ?_
    have : a = .pv i s k sh := by simpa using (mem_keptRefs.1 ha).1
    subst this
    exact one b k sh c hc (hb b hbm) hm
  induction h with
  | nil => simp [pSideDraw, keptRefs]
  | @cons g k l ks h _ ih =>
    obtain ⟨-, h2, h3⟩ := h
    have hg : ∀ b ∈ g.all, b.normal = sideNormal ((fitStep p (u t)).row i).full s := fun b hb =>
      hn b (by rw [List.flatMap_cons]; exact List.mem_append_left _ hb)
    have ih := ih fun b hb => hn b (by rw [List.flatMap_cons]; exact List.mem_append_right _ hb)
    rw [List.flatMap_cons, keptRefs_append, List.flatMap_append, ← ih,
      show [SurfRef.pv i s k true, SurfRef.pv i s k false]
        = [SurfRef.pv i s k true] ++ [SurfRef.pv i s k false] from rfl, keptRefs_append,
      List.flatMap_append,
      ← coll g.shaded.surfs k true "#ff0000" rfl
        (fun b hb => hg b (List.mem_append_right _ hb)) h3,
      ← coll g.illum.surfs k false "#6699cc" rfl
        (fun b hb => hg b (List.mem_append_left _ hb)) h2]
    rfl

/-- C105 (rows).  A row can be drawn at every time step.  The drawing shows exactly its surfaces
that are not points, front before back, segment by segment and shaded before illuminated parts: shaded
ones in red, illuminated ones in blue, each with its index on the side it faces. -/
theorem C105_row (p : ArrayParams) (u : ℕ → StepIn) (q : SurfRef → ParamDict) (t i : ℕ)
    (hw : 0 < p.width) (withIndex : Bool) :
    (tsRow p u q i).plotAtIdx t "#ff0000" "#6699cc" withIndex
      = some ((keptRefs p (u t) (drawOrder p i)).flatMap (rowShown p (u t) withIndex)) := by
  obtain ⟨r, hr, -⟩ := C58_surfaces p u q t i
  have hf := row_at_side hr .front
  have hb := row_at_side hr .back
  rw [TsRow.plotAtIdx, hr, Option.map_some, PRow.draw, drawOrder, keptRefs_append,
    List.flatMap_append]
  congr 2
  · exact side_shown hw withIndex hf.1 hf.2
  · exact side_shown hw withIndex hb.1 hb.2

/-- C105 (sides).  Drawing one side shows the surfaces of this side, without indices. -/
theorem C105_side (p : ArrayParams) (u : ℕ → StepIn) (q : SurfRef → ParamDict) (t i : ℕ)
    (s : RowSide) (hw : 0 < p.width) :
    tsSidePlotAtIdx (tsSegs p u q i s) t "#ff0000" "#6699cc"
      = some ((keptRefs p (u t) (sideDrawOrder p i s)).flatMap (rowShown p (u t) false)) := by
  obtain ⟨l, hl, h1, h2⟩ := side_at p u q t i s
  rw [tsSidePlotAtIdx, hl, Option.map_some, side_shown hw false h1 h2]
  rfl

/-- C105 (segment).  The drawing of a segment shows its shaded and its illuminated surface, without labels. -/
theorem C105_segment (p : ArrayParams) (u : ℕ → StepIn) (q : SurfRef → ParamDict) (t i : ℕ)
    (s : RowSide) (hw : 0 < p.width) (k : ℕ) (hk : k < p.nSeg i s) :
    ∃ S : TsSeg, (tsSegs p u q i s)[k]? = some S ∧
      S.plotAtIdx t "#ff0000" "#6699cc"
        = some ((keptRefs p (u t) [.pv i s k true, .pv i s k false]).flatMap (rowShown p (u t) false)) := by
  refine ⟨_, by rw [tsSegs, List.getElem?_map, List.getElem?_range hk]; rfl, ?_⟩
  obtain ⟨g, h1, h2, h3, h4, -⟩ := seg_at p u q t i s k
  have := side_shown (l := [g]) (ks := [k]) hw false
    (.cons ⟨h2, by rw [h3]; exact made_single .., by rw [h4]; exact made_single ..⟩ .nil) (by
      intro b hb
      simp only [List.flatMap_cons, List.flatMap_nil, List.append_nil, PSeg.all, List.mem_append, h3, h4,
        List.mem_map] at hb
      rcases hb with ⟨_, _, rfl⟩ | ⟨_, _, rfl⟩ <;> rfl)
  rw [TsSeg.plotAtIdx, h1, Option.map_some, Option.some.injEq]
  simpa [pSideDraw] using this

/-- C105 (order).  The drawing of a row leaves out no surface and shows none twice. -/
theorem C105_order (p : ArrayParams) (i : ℕ) :
    (drawOrder p i).Perm (rowRefs p i) ∧ (drawOrder p i).Nodup := by
  have h1 : ∀ (s : RowSide) (l : List ℕ),
      (l.flatMap fun k => [SurfRef.pv i s k true, SurfRef.pv i s k false]).Perm
        (l.flatMap fun k => [SurfRef.pv i s k false, SurfRef.pv i s k true]) := by
    intro s l
    induction l with
    | nil => exact .nil
    | cons k l ih =>
      rw [List.flatMap_cons, List.flatMap_cons]
      exact (List.Perm.swap _ _ _).append ih
  refine ⟨(h1 .front _).append (h1 .back _), ?_⟩
  have h2 : ∀ s : RowSide, (sideDrawOrder p i s).Nodup := by
    intro s
    rw [sideDrawOrder, List.nodup_flatMap]
    refine ⟨fun k _ => by simp, ?_⟩
    refine List.Pairwise.imp ?_ (List.nodup_range (n := p.nSeg i s))
    intro k m hkm
    simp [Function.onFun, List.disjoint_left, hkm]
  rw [drawOrder, List.nodup_append]
  refine ⟨h2 _, h2 _, ?_⟩
  intro a ha b hb hab
  subst hab
  simp only [sideDrawOrder, List.mem_flatMap] at ha hb
  obtain ⟨k, -, ha⟩ := ha
  obtain ⟨m, -, hb⟩ := hb
  simp only [List.mem_cons, List.not_mem_nil, or_false] at ha hb
  rcases ha with rfl | rfl <;> simp at hb

/-- C105 (surfaces).  One surface drawn by itself: shown without index if longer than 1e-8 m, and
nothing is drawn otherwise. -/
theorem C105_surface (p : ArrayParams) (u : ℕ → StepIn) (q : SurfRef → ParamDict) (t i : ℕ)
    (s : RowSide) (k : ℕ) (sh : Bool) (color : String) :
    (tsSurfOf p u q i s k sh).plotAtIdx t color
      = open Classical in if (1e-8 : ℝ) < ((fitStep p (u t)).coords (.pv i s k sh)).length then
          [.coords ((fitStep p (u t)).coords (.pv i s k sh)),
            .bounds ((fitStep p (u t)).coords (.pv i s k sh)),
            .line ((fitStep p (u t)).coords (.pv i s k sh)) color]
        else [] := by
  have hT : TOL = 1e-8 := by norm_num [TOL]
  unfold TsSurf.plotAtIdx TsSurf.at
  have e : (tsSurfOf p u q i s k sh).coords t = (fitStep p (u t)).coords (.pv i s k sh) := rfl
  rw [e, hT]
  by_cases h1 : (1e-8 : ℝ) < ((fitStep p (u t)).coords (.pv i s k sh)).length
  · rw [if_pos h1, if_pos h1, if_neg (not_lt.2 h1.le)]
    simp [PSurf.draw]
  · rw [if_neg h1, if_neg h1]

/-- The drawing of a ground made from lists of surfaces: the shaded ones and then the others. -/
theorem ground_lists_draw (shaded illum : List PSurf) (xMinMax : Option (ℝ × ℝ)) (y : ℝ)
    (label : PSurf → Option ℝ) (c d : String) (withIndex : Bool) {G : PGround}
    (h : groundFromLists shaded illum xMinMax y = some G) :
    pSideDraw label c d withIndex G.segs
      = shaded.flatMap (PSurf.draw label c withIndex) ++ illum.flatMap (PSurf.draw label d withIndex) := by
  have hcoll : ∀ {l : List PSurf} {sh : Bool} {c : PColl}, mkColl l sh = some c → c.surfs = l := by
    intro l sh c hc
    unfold mkColl at hc
    split_ifs at hc
    rw [← Option.some.inj hc]
  unfold groundFromLists at h
  obtain ⟨a, ha, h⟩ := Option.bind_eq_some_iff.1 h
  obtain ⟨b, hb, h⟩ := Option.bind_eq_some_iff.1 h
  obtain ⟨seg, hseg, h⟩ := Option.bind_eq_some_iff.1 h
  obtain ⟨l, hl, rfl⟩ := Option.map_eq_some_iff.1 h
  unfold mkSeg at hseg
  unfold mkSide at hl
  split_ifs at hseg hl
  rw [← Option.some.inj hl, ← Option.some.inj hseg]
  simp [pSideDraw, PSeg.draw, PColl.draw, hcoll ha, hcoll hb]

/-! ## Ground surfaces go from left to right -/

/-- The end of a surface is to the right of its start. -/
def GoesRight (s : GSurf) : Prop := s.line.b1.x < s.line.b2.x

/-- What the loops over surfaces keep, with the surfaces still to come. -/
def StRight (R : List GSurf) (st : List GSurf × Option GSurf) : Prop :=
  (∀ s ∈ st.1, GoesRight s) ∧ ∀ c ∈ st.2, ∀ s ∈ R, c.line.b1.x ≤ s.line.b1.x

/-- Surfaces that go from left to right and are in order. -/
def InOrder (l : List GSurf) : Prop :=
  (∀ s ∈ l, GoesRight s) ∧ l.Pairwise fun s t => s.line.b1.x ≤ t.line.b1.x

theorem mergeSurfStep_right (lastEl : Bool) (n : ℕ) {R : List GSurf} {st : List GSurf × Option GSurf}
    {s : GSurf × ℕ} (hst : StRight (s.1 :: R) st) (hR : InOrder (s.1 :: R)) :
    StRight R (mergeSurfStep lastEl n st s) := by
  have hs := hR.1 s.1 List.mem_cons_self
  have hsR := (List.pairwise_cons.1 hR.2).1
  have hm : GoesRight (mergeWith st.2 s.1) := by
    cases hc : st.2 with
    | none => exact hs
    | some c =>
      have := hst.2 c hc s.1 List.mem_cons_self
      exact lt_of_le_of_lt this hs
  have hmR : ∀ x ∈ R, (mergeWith st.2 s.1).line.b1.x ≤ x.line.b1.x := by
    intro x hx
    cases hc : st.2 with
    | none => exact hsR x hx
    | some c => exact hst.2 c hc x (List.mem_cons_of_mem _ hx)
  have hkeep : ∀ c ∈ st.2, ∀ x ∈ R, c.line.b1.x ≤ x.line.b1.x :=
    fun c hc x hx => hst.2 c hc x (List.mem_cons_of_mem _ hx)
  have happ : ∀ t, GoesRight t → ∀ x ∈ st.1 ++ [t], GoesRight x := by
    intro t ht x hx
    rcases List.mem_append.1 hx with hx | hx
    · exact hst.1 x hx
    · rw [List.mem_singleton.1 hx]; exact ht
  have h1 : GoesRight (if s.2 = 0 then mergeWith st.2 s.1 else s.1) := by split_ifs <;> assumption
  have h2 : ∀ x ∈ R, (if s.2 = 0 then mergeWith st.2 s.1 else s.1).line.b1.x ≤ x.line.b1.x := by
    split_ifs <;> assumption
  unfold mergeSurfStep
  dsimp only
  by_cases e1 : s.2 = n - 1
  · rw [if_pos e1]
    cases lastEl
    · exact ⟨hst.1, by rintro c ⟨⟩; exact h2⟩
    · exact ⟨happ _ h1, hkeep⟩
  · rw [if_neg e1]
    split_ifs
    · exact ⟨happ _ hm, hkeep⟩
    · exact ⟨happ _ hs, hkeep⟩

theorem mergeEl_right (lastEl : Bool) (n : ℕ) (l : List (GSurf × ℕ)) {R : List GSurf}
    {st : List GSurf × Option GSurf} (hst : StRight (l.map Prod.fst ++ R) st)
    (hR : InOrder (l.map Prod.fst ++ R)) : StRight R (l.foldl (mergeSurfStep lastEl n) st) := by
  induction l generalizing st with
  | nil => exact hst
  | cons s l ih =>
    refine ih (mergeSurfStep_right lastEl n hst hR) ⟨fun x hx => hR.1 x (List.mem_cons_of_mem _ hx), ?_⟩
    exact (List.pairwise_cons.1 hR.2).2

theorem mergeLoop_right {els : List (List GSurf)} (h : InOrder els.flatten) :
    ∀ s ∈ mergeLoop els, GoesRight s := by
  have key : ∀ (m : ℕ) (l : List (List GSurf × ℕ)) (st : List GSurf × Option GSurf),
      StRight (l.map Prod.fst).flatten st → InOrder (l.map Prod.fst).flatten →
      StRight [] (l.foldl (fun st e => mergeEl (decide (e.2 = m)) st e.1) st) := by
    intro m l
    induction l with
    | nil => intro st h1 _; exact h1
    | cons e l ih =>
      intro st h1 h2
      rw [List.map_cons, List.flatten_cons] at h1 h2
      refine ih _ ?_ ⟨fun x hx => h2.1 x (List.mem_append_right _ hx), (List.pairwise_append.1 h2.2).2.1⟩
      unfold mergeEl
      refine mergeEl_right _ _ _ ?_ ?_
      · rw [List.zipIdx_map_fst]; exact h1
      · rw [List.zipIdx_map_fst]; exact h2
  have := key (els.length - 1) els.zipIdx ([], none) ⟨by simp, by simp⟩
    (by rw [List.zipIdx_map_fst]; exact h)
  exact this.1

theorem goesRight_of {l : Line} (hle : l.b1.x ≤ l.b2.x) (hy : l.b1.y = l.b2.y) (h : l.length > TOL) :
    l.b1.x < l.b2.x := by
  have hT := TOL_pos
  rw [Line.length_ground hy, abs_of_nonneg (by linarith)] at h
  linarith

/-- The surfaces of an element of the ground go from left to right, are in order and inside. -/
theorem nonPoint_inOrder {l : Line} (h : LineInGround l) (hle : l.b1.x ≤ l.b2.x) (cuts : List XR)
    (q : ℕ → ℝ) : InOrder (nonPointSurfaces l cuts q) ∧
      ∀ s ∈ nonPointSurfaces l cuts q, l.b1.x ≤ s.line.b1.x ∧ s.line.b2.x ≤ l.b2.x := by
  have hmem : ∀ s ∈ nonPointSurfaces l cuts q, s.line ∈ cutSurfaces l cuts ∧ GoesRight s := by
    intro s hs
    have hlen := (List.mem_filter.1 hs).2
    have hs := (List.mem_filter.1 hs).1
    unfold elSurfaces at hs
    split_ifs at hs
    · simp at hs
    · obtain ⟨x, hx, rfl⟩ := List.mem_map.1 hs
      have hx := List.fst_mem_of_mem_zipIdx hx
      have hg := cutSurfaces_inGround h cuts _ hx
      exact ⟨hx, goesRight_of (cutSurfaces_ordered h hle cuts _ hx) (hg.2.2.1.trans hg.2.2.2.symm)
        (by simpa using hlen)⟩
  refine ⟨⟨fun s hs => (hmem s hs).2, ?_⟩, fun s hs =>
    cutSurfaces_inside h hle cuts _ (hmem s hs).1 (hmem s hs).2⟩
  have hp : (nonPointSurfaces l cuts q).Pairwise fun s t =>
      GoesRight s → GoesRight t → s.line.b2.x ≤ t.line.b1.x := by
    unfold nonPointSurfaces
    refine List.Pairwise.filter _ ?_
    unfold elSurfaces
    split_ifs
    · exact List.Pairwise.nil
    · have := cutSurfaces_pairwise h hle cuts
      rw [← List.zipIdx_map_fst 0 (cutSurfaces l cuts), List.pairwise_map] at this
      rw [List.pairwise_map]
      exact this
  refine List.Pairwise.imp_of_mem (fun {s t} hs ht hst => ?_) hp
  have := hst (hmem s hs).2 (hmem t ht).2
  have h2 : s.line.b1.x < s.line.b2.x := (hmem s hs).2
  linarith

/-- All shaded ground surfaces made for a time step go from left to right. -/
theorem shadedAt_right (g : GroundIn) (ho : g.Ordered) (merge withCut : Bool) (q : ℕ → ℕ → ℝ)
    (qAll : ℝ) : ∀ s ∈ g.shadedAt merge withCut q qAll, GoesRight s := by
  have hel : ∀ i ∈ g.nonPointShadows,
      InOrder (nonPointSurfaces (g.shadowEl i) g.cuts (q i)) ∧
      ∀ s ∈ nonPointSurfaces (g.shadowEl i) g.cuts (q i),
        (g.shadowEl i).b1.x ≤ s.line.b1.x ∧ s.line.b2.x ≤ (g.shadowEl i).b2.x := fun i hi =>
    nonPoint_inOrder (shadowEl_inGround g i) (shadowEl_le ho (mem_nonPointShadows.1 hi).1) _ _
  have hflat : InOrder (g.nonPointShadows.map fun i =>
      nonPointSurfaces (g.shadowEl i) g.cuts (q i)).flatten := by
    refine ⟨?_, ?_⟩
    · intro s hs
      obtain ⟨e, he, hs⟩ := List.mem_flatten.1 hs
      obtain ⟨i, hi, rfl⟩ := List.mem_map.1 he
      exact (hel i hi).1.1 s hs
    · rw [List.pairwise_flatten]
      refine ⟨?_, ?_⟩
      · intro e he
        obtain ⟨i, hi, rfl⟩ := List.mem_map.1 he
        exact (hel i hi).1.2
      · rw [List.pairwise_map]
        refine List.Pairwise.imp_of_mem (fun {i j} hi hj hij => ?_) (nonPointShadows_sorted g)
        intro s hs t ht
        have h1 : s.line.b1.x < s.line.b2.x := (hel i hi).1.1 s hs
        have h2 := ((hel i hi).2 s hs).2
        have h3 := ((hel j hj).2 t ht).1
        have h4 := shadowEl_lt ho hij (mem_nonPointShadows.1 hj).1
        linarith
  have hall : ∀ s ∈ g.nonPointShadows.map (fun i => (⟨g.shadowEl i, qAll⟩ : GSurf)), GoesRight s := by
    intro s hs
    obtain ⟨i, hi, rfl⟩ := List.mem_map.1 hs
    exact nonPoint_lt ho hi
  intro s hs
  unfold GroundIn.shadedAt GroundIn.mergeShadowSurfaces at hs
  dsimp only at hs
  split_ifs at hs with h1 h2 h3 h4 h5
  · exact mergeLoop_right hflat s hs
  · exact hflat.1 s hs
  · rw [List.flatMap_def] at hs
    exact hflat.1 s hs
  · rw [List.mem_singleton.1 hs]
    have hne : g.nonPointShadows ≠ [] := by
      intro h
      rw [h] at h5
      simp at h5
    obtain ⟨a, l, hl⟩ := List.exists_cons_of_ne_nil hne
    have hlast : g.nonPointShadows.getLastD 0 ∈ g.nonPointShadows := by
      rw [List.getLastD_eq_getLast?, List.getLast?_eq_some_getLast hne]
      exact List.getLast_mem hne
    have hhead : g.nonPointShadows.headD 0 = a := by rw [hl]; rfl
    have ha : a ∈ g.nonPointShadows := by rw [hl]; exact List.mem_cons_self
    have h0 := nonPoint_lt ho ha
    have h9 := nonPoint_lt ho hlast
    show (g.shadowEl (g.nonPointShadows.headD 0)).b1.x < (g.shadowEl (g.nonPointShadows.getLastD 0)).b2.x
    rw [hhead]
    by_cases he : g.nonPointShadows.getLastD 0 = a
    · rw [he]; exact h0
    · have hsort := nonPointShadows_sorted g
      have hlt : a < g.nonPointShadows.getLastD 0 := by
        rcases List.mem_cons.1 (hl ▸ hlast : g.nonPointShadows.getLastD 0 ∈ a :: l) with h | h
        · exact absurd h he
        · exact (List.pairwise_cons.1 (hl ▸ hsort)).1 _ h
      have := shadowEl_lt ho hlt (mem_nonPointShadows.1 hlast).1
      linarith
  · exact hall s hs
  · exact hall s hs

/-- All illuminated ground surfaces made for a time step go from left to right. -/
theorem illumAt_right (g : GroundIn) (ho : g.Ordered) (withCut : Bool) (q : ℕ → ℕ → ℝ)
    (qAll : ℝ) : ∀ s ∈ g.illumAt withCut q qAll, GoesRight s := by
  intro s hs
  unfold GroundIn.illumAt at hs
  split_ifs at hs
  · obtain ⟨i, hi, hs⟩ := List.mem_flatMap.1 hs
    exact (nonPoint_inOrder (illumEl_inGround g i)
      (illumEl_le ho (by have := List.mem_range.1 hi; omega)) _ _).1.1 s hs
  · obtain ⟨i, hi, rfl⟩ := List.mem_map.1 hs
    obtain ⟨h1, h2⟩ := List.mem_filter.1 hi
    exact goesRight_of (illumEl_le ho (by have := List.mem_range.1 h1; omega)) rfl (by simpa using h2)

theorem ground_shown (l : List GSurf) (sh withCut withIndex : Bool) (c : String)
    (h : ∀ s ∈ l, s.line.b1.x < s.line.b2.x ∧ s.line.b1.y = Y_GROUND ∧ s.line.b2.y = Y_GROUND) :
    (l.map (GSurf.toPSurf sh)).flatMap (PSurf.draw (groundLabel withCut) c withIndex)
      = l.flatMap fun s => shown s.line ⟨0, 1⟩ c (gLabel withCut s) withIndex := by
  rw [List.flatMap_map]
  refine List.flatMap_congr fun s hs => ?_
  obtain ⟨h1, h2, h3⟩ := h s hs
  rw [draw_shown (groundLabel withCut) c withIndex (s.toPSurf sh) ⟨0, 1⟩ (c := s.line.b2.x - s.line.b1.x)
    (by linarith) (by norm_num) (by simp [GSurf.toPSurf, calcNormal, h2, h3])]
  cases withCut <;> rfl

/-- C105 (ground).  With shadows in order the ground can be drawn with all options, with its shaded surfaces first, and with all labels above it. -/
theorem C105_ground (p : ArrayParams) (g : GroundIn) (xMinMax : Option (ℝ × ℝ))
    (merge withCut withIndex : Bool) (c d : String) (ho : g.Ordered) :
    groundPlotAtIdx p g xMinMax merge withCut c d withIndex
      = some ((g.shadedAt merge withCut (fun e z => (surfIndex p (.gnd true e z) : ℝ)) 0).flatMap
            (fun s => shown s.line ⟨0, 1⟩ c (gLabel withCut s) withIndex)
          ++ (g.illumAt withCut (fun e z => (surfIndex p (.gnd false e z) : ℝ)) 0).flatMap
            (fun s => shown s.line ⟨0, 1⟩ d (gLabel withCut s) withIndex)) := by
  obtain ⟨G, hG, -⟩ := C79_at g xMinMax merge withCut
    (fun e z => (surfIndex p (.gnd true e z) : ℝ)) (fun e z => (surfIndex p (.gnd false e z) : ℝ)) 0 0
  rw [groundPlotAtIdx, hG, Option.map_some,
    ground_lists_draw _ _ _ _ (groundLabel withCut) c d withIndex hG,
    ground_shown _ _ _ _ _ fun s hs =>
      ⟨shadedAt_right g ho merge withCut _ _ s hs, shadedAt_onGround g merge withCut _ _ s hs⟩,
    ground_shown _ _ _ _ _ fun s hs =>
      ⟨illumAt_right g ho withCut _ _ s hs, illumAt_onGround g withCut _ _ s hs⟩]

/-- C105 (array).  A physically placed array can be drawn at every time step and with all options.  The drawing shows the ground, the rows from left to right, and then the
axes, with half a row distance left of the first and right of the last row and from one height below
the ground up to twice the height. -/
theorem C105_array (p : ArrayParams) (u : ℕ → StepIn) (q : SurfRef → ParamDict) (t : ℕ)
    (hp : PhysicalArray p) (hu : PhysicalStep p (u t))
    (merge withCut : Bool) (xMinMax : Option (ℝ × ℝ)) (withIndex : Bool) :
    plotAtIdx p u q t merge withCut xMinMax withIndex
      = some (((fitStep p (u t)).ground.shadedAt merge withCut
            (fun e z => (surfIndex p (.gnd true e z) : ℝ)) 0).flatMap
            (fun s => shown s.line ⟨0, 1⟩ "#A7A49D" (gLabel withCut s) withIndex)
          ++ ((fitStep p (u t)).ground.illumAt withCut
            (fun e z => (surfIndex p (.gnd false e z) : ℝ)) 0).flatMap
            (fun s => shown s.line ⟨0, 1⟩ "#FFBB33" (gLabel withCut s) withIndex)
          ++ (List.range p.nRows).flatMap (fun i =>
            (keptRefs p (u t) (drawOrder p i)).flatMap (rowShown p (u t) withIndex))
          ++ [.axisEqual, .xlim (-(p.distance / 2)) (p.nRows * p.distance - p.distance / 2),
            .ylim (-p.height) (2 * p.height), .xlabel "x [m]" 20, .ylabel "y [m]" 20]) := by
  have ho := ordered_of hp hu
  have hm : ((List.range p.nRows).mapM fun i =>
      (tsRow p u q i).plotAtIdx t COLOR_ROW_SHADED COLOR_ROW_ILLUM withIndex)
      = some ((List.range p.nRows).map fun i =>
        (keptRefs p (u t) (drawOrder p i)).flatMap (rowShown p (u t) withIndex)) := by
    induction List.range p.nRows with
    | nil => rfl
    | cons k l ih =>
      rw [List.mapM_cons, ih, show (tsRow p u q k).plotAtIdx t COLOR_ROW_SHADED COLOR_ROW_ILLUM withIndex
        = _ from C105_row p u q t k hp.width_pos withIndex]
      rfl
  rw [plotAtIdx, C105_ground p _ xMinMax merge withCut withIndex _ _ ho, Option.bind_some, hm,
    Option.map_some, ← List.flatMap_def]
  rw [show (-0.5 : ℝ) * p.distance = -(p.distance / 2) by ring,
    show ((p.nRows : ℝ) - 0.5) * p.distance = p.nRows * p.distance - p.distance / 2 by ring]
  rfl

/-! ## What is seen -/

theorem rowPt_near {c : Pt} {rot ρ w : ℝ} (h0 : -(w / 2) ≤ ρ) (h1 : ρ ≤ w / 2) :
    |(rowPt c rot ρ).x - c.x| ≤ w / 2 ∧ |(rowPt c rot ρ).y - c.y| ≤ w / 2 * |sind rot| := by
  have hρ : |ρ| ≤ w / 2 := abs_le.2 ⟨h0, h1⟩
  have hc : |cosd rot| ≤ 1 := Real.abs_cos_le_one _
  constructor
  · rw [rowPt, add_sub_cancel_right, abs_mul]
    calc |ρ| * |cosd rot| ≤ |ρ| * 1 := mul_le_mul_of_nonneg_left hc (abs_nonneg _)
      _ ≤ w / 2 := by rw [mul_one]; exact hρ
  · rw [rowPt, add_sub_cancel_right, abs_mul]
    exact mul_le_mul_of_nonneg_right hρ (abs_nonneg _)

/-- The ends of a surface of a row are near the centre of the row. -/
theorem pv_ends_near {p : ArrayParams} {u : StepIn} (hp : PhysicalArray p) (hu : PhysicalStep p u)
    {i : ℕ} {s : RowSide} {k : ℕ} (hk : k < p.nSeg i s) (sh : Bool) :
    ∀ P, P = ((fitStep p u).coords (.pv i s k sh)).b1 ∨ P = ((fitStep p u).coords (.pv i s k sh)).b2 →
      |P.x - i * p.distance| ≤ p.width / 2 ∧ |P.y - p.height| < p.height := by
  have h := physical_of hp hu
  have hb := pv_iv_bounds (rot := (fitStep p u).rot) (sun := (fitStep p u).sun) hk sh hp.width_pos.le
  have key : ∀ t, 0 ≤ t → t ≤ p.width →
      |(tPt (rowCenter p i) p.width (fitStep p u).rot.deg t).x - i * p.distance| ≤ p.width / 2 ∧
      |(tPt (rowCenter p i) p.width (fitStep p u).rot.deg t).y - p.height| < p.height := by
    intro t h0 h1
    have hab : p.width / 2 * |sind (fitStep p u).rot.deg| < p.height := h.above
    have e1 : (rowCenter p i).x = i * p.distance := by simp [rowCenter, X_ORIGIN]
    have e2 : (rowCenter p i).y = p.height := by simp [rowCenter, Y_GROUND]
    unfold tPt
    rw [← e1]
    split_ifs
    · obtain ⟨k1, k2⟩ := rowPt_near (c := rowCenter p i) (rot := (fitStep p u).rot.deg)
        (ρ := -(p.width / 2) + t) (w := p.width) (by linarith) (by linarith)
      rw [e2] at k2
      exact ⟨k1, lt_of_le_of_lt k2 hab⟩
    · obtain ⟨k1, k2⟩ := rowPt_near (c := rowCenter p i) (rot := (fitStep p u).rot.deg)
        (ρ := p.width / 2 - t) (w := p.width) (by linarith) (by linarith)
      rw [e2] at k2
      exact ⟨k1, lt_of_le_of_lt k2 hab⟩
  have e : (fitStep p u).coords (.pv i s k sh) = _ :=
    coords_pv_t (rot := (fitStep p u).rot) (sun := (fitStep p u).sun) hk sh hp.width_pos.le h.lo h.hi
  rw [e]
  intro P hP
  have hA := key _ hb.1 (hb.2.1.trans hb.2.2)
  have hB := key _ (hb.1.trans hb.2.1) hb.2.2
  split_ifs at hP
  · rcases hP with rfl | rfl
    · exact hB
    · exact hA
  · rcases hP with rfl | rfl
    · exact hA
    · exact hB

/-- C105 (window).  If rows are not wider than the distance between them, all surfaces of all rows
lie inside the limits of the axes: between half a distance left of the first and right of the last row,
above the ground and below twice the height. -/
theorem C105_window (p : ArrayParams) (u : StepIn) (hp : PhysicalArray p) (hu : PhysicalStep p u)
    (hg : p.gcr ≤ 1) {i : ℕ} (hi : i < p.nRows) {s : RowSide} {k : ℕ} (hk : k < p.nSeg i s) (sh : Bool)
    (P : Pt)
    (hP : P = ((fitStep p u).coords (.pv i s k sh)).b1 ∨ P = ((fitStep p u).coords (.pv i s k sh)).b2) :
    -(p.distance / 2) ≤ P.x ∧ P.x ≤ p.nRows * p.distance - p.distance / 2 ∧
      0 < P.y ∧ P.y < 2 * p.height := by
  obtain ⟨hx, hy⟩ := pv_ends_near hp hu hk sh P hP
  rw [abs_le] at hx
  rw [abs_lt] at hy
  have hd : 0 < p.distance := div_pos hp.width_pos hp.gcr_pos
  have hw : p.width ≤ p.distance := by
    have : p.distance = p.width / p.gcr := rfl
    rw [this, le_div_iff₀ hp.gcr_pos]
    exact mul_le_of_le_one_right hp.width_pos.le hg
  have h1 : 0 ≤ (i : ℝ) * p.distance := mul_nonneg (Nat.cast_nonneg _) hd.le
  have h2 : ((i : ℝ) + 1) * p.distance ≤ p.nRows * p.distance := by
    refine mul_le_mul_of_nonneg_right ?_ hd.le
    exact_mod_cast hi
  refine ⟨by linarith [hx.1], ?_, by linarith [hy.1], by linarith [hy.2]⟩
  linarith [hx.2]

theorem label_near {p : ArrayParams} {u : StepIn} (hp : PhysicalArray p) (hu : PhysicalStep p u)
    {i : ℕ} {s : RowSide} {k : ℕ} (hk : k < p.nSeg i s) (sh : Bool) :
    |(labelPlace ((fitStep p u).coords (.pv i s k sh))
      (outward (fitStep p u).rot.deg (.pv i s k sh))).x - i * p.distance| ≤ p.width / 2 + 1 / 5 := by
  have h1 := abs_le.1 (pv_ends_near hp hu hk sh _ (.inl rfl)).1
  have h2 := abs_le.1 (pv_ends_near hp hu hk sh _ (.inr rfl)).1
  have ho := outward_unit (fitStep p u).rot.deg (.pv i s k sh)
  have h3 : |(outward (fitStep p u).rot.deg (.pv i s k sh)).x| ≤ 1 := by
    rw [← sq_le_one_iff_abs_le_one]
    linarith [sq_nonneg (outward (fitStep p u).rot.deg (.pv i s k sh)).y]
  have h3 := abs_le.1 h3
  rw [labelPlace, abs_le]
  constructor <;> dsimp only <;> linarith [h1.1, h1.2, h2.1, h2.2, h3.1, h3.2]

/-- C105 (labels).  With indices, each surface of a row whose centre is less than 50 m from the first
row, by more than half its width and 0.2 m, gets its label, 0.2 m from its middle and on the side it
faces.  The rows further than 50 m by this much get no labels at all: they are drawn as without
indices. -/
theorem C105_labels (p : ArrayParams) (u : StepIn) (hp : PhysicalArray p) (hu : PhysicalStep p u)
    {i : ℕ} {s : RowSide} {k : ℕ} (hk : k < p.nSeg i s) (sh : Bool) :
    let l := (fitStep p u).coords (.pv i s k sh)
    let n := outward (fitStep p u).rot.deg (.pv i s k sh)
    (i * p.distance + p.width / 2 + 1 / 5 < 50 →
      rowShown p u true (.pv i s k sh)
        = rowShown p u false (.pv i s k sh) ++
          [.text ⟨(l.b1.x + l.b2.x) / 2 + n.x / 5, (l.b1.y + l.b2.y) / 2 + n.y / 5⟩
            (some (surfIndex p (.pv i s k sh) : ℝ))]) ∧
    (50 ≤ i * p.distance - p.width / 2 - 1 / 5 →
      rowShown p u true (.pv i s k sh) = rowShown p u false (.pv i s k sh)) := by
  intro l n
  have h := abs_le.1 (label_near hp hu hk sh)
  have hd : 0 < p.distance := div_pos hp.width_pos hp.gcr_pos
  have h1 : 0 ≤ (i : ℝ) * p.distance := mul_nonneg (Nat.cast_nonneg _) hd.le
  refine ⟨fun hn => ?_, fun hf => ?_⟩
  · have : |(labelPlace ((fitStep p u).coords (.pv i s k sh))
        (outward (fitStep p u).rot.deg (.pv i s k sh))).x| < 50 :=
      abs_lt.2 ⟨by linarith [h.1, hp.width_pos], by linarith [h.2]⟩
    rw [rowShown, rowShown, shown, shown, if_pos ⟨rfl, this⟩, if_neg (by simp)]
    rfl
  · have : ¬ |(labelPlace ((fitStep p u).coords (.pv i s k sh))
        (outward (fitStep p u).rot.deg (.pv i s k sh))).x| < 50 := by
      rw [not_lt]
      exact le_trans (by linarith [h.1]) (le_abs_self _)
    rw [rowShown, rowShown, shown, shown, if_neg (by simp [this]), if_neg (by simp)]

/-- The array of the demonstrations with 12 rows: the last one is 55 m from the first. -/
noncomputable def longArray : ArrayParams := { vertArray with nRows := 12 }

/-- C105 (witness).  The drawing of the array of two rows shows the shadow of the first row on the
ground and the limits of the axes; the back of its second row gets its index; the last one of 12 rows
gets none. -/
theorem C105_demo (q : SurfRef → ParamDict) :
    (∃ d, plotAtIdx vertArray (fun _ => vertStep) q 0 false false none true = some d ∧
      Draw.line ⟨⟨1 / 2, 0⟩, ⟨5 / 2, 0⟩⟩ "#A7A49D" ∈ d ∧
      Draw.text ⟨3 / 2, 1 / 5⟩ none ∈ d ∧ Draw.xlim (-(5 / 2)) (15 / 2) ∈ d ∧
      Draw.ylim (-(3 / 2)) 3 ∈ d) ∧
    (∃ P, Draw.text P (some (surfIndex vertArray (.pv 1 .back 0 false) : ℝ))
      ∈ rowShown vertArray vertStep true (.pv 1 .back 0 false)) ∧
    rowShown longArray vertStep true (.pv 11 .front 0 false)
      = rowShown longArray vertStep false (.pv 11 .front 0 false) := by
  have hdist : vertArray.distance = 5 := by norm_num [ArrayParams.distance, vertArray]
  refine ⟨⟨_, C105_array vertArray (fun _ => vertStep) q 0 vert_physicalArray vert_physicalStep false
    false none true, ?_, ?_, ?_, ?_⟩, ?_, ?_⟩
  rotate_left 2
  · rw [hdist]
    refine List.mem_append_right _ ?_
    norm_num [vertArray]
  · refine List.mem_append_right _ ?_
    norm_num [vertArray]
  · have := (C105_labels vertArray vertStep vert_physicalArray vert_physicalStep (i := 1) (s := .back)
      (k := 0) (by simp [vertArray, ArrayParams.nSeg, ArrayParams.nBack]) false).1
      (by rw [hdist]; norm_num [vertArray])
    exact ⟨_, by rw [this]; exact List.mem_append_right _ (List.mem_singleton.2 rfl)⟩
  · have hp : PhysicalArray longArray := ⟨vert_physicalArray.1, vert_physicalArray.2⟩
    have hsh : ShadeOk vertArray _ _ := vert_physicalStep.shade_ok
    have hsh2 := hsh.resolve_left (by norm_num [vertArray])
    have hu : PhysicalStep longArray vertStep :=
      { tilt_nonneg := vert_physicalStep.tilt_nonneg, tilt_lt := vert_physicalStep.tilt_lt,
        above := vert_physicalStep.above, sun_y := vert_physicalStep.sun_y,
        sun_front := vert_physicalStep.sun_front, shade_ok := .inr hsh2 }
    have hd : longArray.distance = 5 := hdist
    refine (C105_labels longArray vertStep hp hu (i := 11) (s := .front) (k := 0)
      (by simp [longArray, vertArray, ArrayParams.nSeg, ArrayParams.nFront]) false).2 ?_
    rw [hd]
    norm_num [longArray, vertArray]
  all_goals
    have hel : (fitStep vertArray vertStep).ground.shadowEl 0 = ⟨⟨1 / 2, 0⟩, ⟨5 / 2, 0⟩⟩ := by
      unfold GroundIn.shadowEl
      rw [vert_xs 0 (by norm_num)]
      norm_num [clip, MIN_X, MAX_X, Y_GROUND]
    have hmem : (⟨⟨⟨1 / 2, 0⟩, ⟨5 / 2, 0⟩⟩, 0⟩ : GSurf)
        ∈ (fitStep vertArray vertStep).ground.shadedAt false false
          (fun e z => (surfIndex vertArray (.gnd true e z) : ℝ)) 0 := by
      unfold GroundIn.shadedAt
      rw [if_neg (by simp), if_neg (by simp)]
      refine List.mem_map.2 ⟨0, mem_nonPointShadows.2 ⟨by simp [fitStep, fitGeom, groundFromRows, vertArray], ?_⟩, by rw [hel]⟩
      rw [hel, Line.length_ground rfl, TOL]
      norm_num
    refine List.mem_append_left _ (List.mem_append_left _ (List.mem_append_left _
      (List.mem_flatMap.2 ⟨_, hmem, ?_⟩)))
    norm_num [shown, labelPlace, gLabel, abs_of_pos]

end PVF

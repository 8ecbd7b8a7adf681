import Verif.Model.GroundObj
import Verif.Props.RowBuild
import Verif.Props.Indices
import Verif.Props.GroundAtMore

/-!
# C79: ground geometries
-/

namespace PVF
noncomputable section

theorem uniformLoop_const (b : Bool) (l : List Bool) (h : ∀ x ∈ l, x = b) :
    uniformLoop (some b) l ∧ uniformLoop none l := by
  induction l with
  | nil => exact ⟨trivial, trivial⟩
  | cons x l ih =>
    obtain rfl := h x List.mem_cons_self
    have := ih fun y hy => h y (List.mem_cons_of_mem _ hy)
    exact ⟨⟨rfl, this.1⟩, this.1⟩

/-- A collection of surfaces with the given shading status. -/
theorem mkColl_some (l : List PSurf) (sh : Bool) (h : ∀ s ∈ l, s.shaded = sh) :
    ∃ c, mkColl l sh = some c ∧ c.surfs = l ∧ c.shaded = sh ∧
      (c.collinear ↔ isCollinear (l.map fun s => some s.normal)) := by
  have hu : uniformLoop none (l.map PSurf.shaded) := (uniformLoop_const sh _ (by
    intro x hx
    obtain ⟨s, hs, rfl⟩ := List.mem_map.1 hx
    exact h s hs)).2
  refine ⟨_, if_pos hu, rfl, ?_, Iff.rfl⟩
  cases l with
  | nil => rfl
  | cons s l => exact h s List.mem_cons_self

/-- Vertical normal vectors are collinear. -/
theorem collinearLoop_vertical (l : List (Option Pt)) (h : ∀ n, some n ∈ l → n.x = 0) :
    (∀ u : Pt, u.y = 0 → collinearLoop (some u) l) ∧ collinearLoop none l := by
  induction l with
  | nil => exact ⟨fun _ _ => trivial, trivial⟩
  | cons x l ih =>
    have ih := ih fun n hn => h n (List.mem_cons_of_mem _ hn)
    cases x with
    | none => exact ⟨fun u hu => ih.1 u hu, ih.2⟩
    | some n =>
      have hn := h n List.mem_cons_self
      refine ⟨fun u hu => ⟨?_, ih.1 u hu⟩, ih.1 ⟨-n.y, n.x⟩ hn⟩
      rw [hn, hu]
      norm_num [TOL_COLLINEAR]

/-- C79 (lists of surfaces).  From lists of shaded and illuminated surfaces whose normal vectors are
all vertical, a ground can be made.  It has these surfaces, illuminated ones first, and the given
ends. -/
theorem C79_lists (shaded illum : List PSurf) (xMinMax : Option (ℝ × ℝ)) (y : ℝ)
    (hs : ∀ s ∈ shaded, s.shaded = true ∧ s.normal.x = 0)
    (hi : ∀ s ∈ illum, s.shaded = false ∧ s.normal.x = 0) :
    ∃ g, groundFromLists shaded illum xMinMax y = some g ∧
      g.segs.flatMap PSeg.all = illum ++ shaded ∧
      pSideNSurfaces g.segs = illum.length + shaded.length ∧
      pSideShadedLength g.segs = (shaded.map fun s => s.line.length).sum ∧
      g.boundary = [⟨(xMinMax.getD (-100, 100)).1, y⟩, ⟨(xMinMax.getD (-100, 100)).2, y⟩] := by
  obtain ⟨c, hc, c1, c2, c3⟩ := mkColl_some shaded true fun s h => (hs s h).1
  obtain ⟨d, hd, d1, d2, d3⟩ := mkColl_some illum false fun s h => (hi s h).1
  have hcol : ∀ l : List PSurf, (∀ s ∈ l, s.normal.x = 0) →
      isCollinear (l.map fun s => some s.normal) := by
    intro l h
    refine (collinearLoop_vertical _ ?_).2
    intro n hn
    obtain ⟨s, hs, he⟩ := List.mem_map.1 hn
    rw [← Option.some.inj he]
    exact h s hs
  have hnorm : ∀ (k : PColl), (∀ s ∈ k.surfs, s.normal.x = 0) → ∀ n ∈ k.normal, n.x = 0 := by
    intro k h n hn
    rw [PColl.normal, Option.mem_def, Option.map_eq_some_iff] at hn
    obtain ⟨a, ha, rfl⟩ := hn
    exact h a (List.mem_of_mem_head? ha)
  have hseg : mkSeg d c none = some ⟨d, c, none⟩ := by
    refine if_pos ⟨c2, d2, d3.2 (hcol _ fun s h => (hi s h).2), c3.2 (hcol _ fun s h => (hs s h).2), ?_⟩
    intro n hn m hm
    have h1 := hnorm d (by rw [d1]; exact fun s h => (hi s h).2) n hn
    have h2 := hnorm c (by rw [c1]; exact fun s h => (hs s h).2) m hm
    rw [vecsCollinear, h1, h2]
    norm_num [TOL_COLLINEAR]
  have hside : mkSide [(⟨d, c, none⟩ : PSeg)] = some [⟨d, c, none⟩] := by
    refine if_pos ?_
    rw [isCollinear, List.map_cons, List.map_nil]
    cases PSeg.normal ⟨d, c, none⟩ <;> exact trivial
  refine ⟨⟨[⟨d, c, none⟩], groundExtent xMinMax y⟩, ?_, ?_, ?_, ?_, rfl⟩
  · simp only [groundFromLists, hc, hd, hseg, hside, Option.bind_some, Option.map_some]
  · simp [PSeg.all, d1, c1]
  · simp [pSideNSurfaces, PSeg.nSurfaces, PColl.nSurfaces, d1, c1]
  · simp only [pSideShadedLength, List.foldl_cons, List.foldl_nil, zero_add, collLength_sum, c1]

/-- C79 (flat ground).  A flat ground consists of a single surface from end to end, with the given
shading status and a normal vector that points up. -/
theorem C79_flat (xMinMax : Option (ℝ × ℝ)) (shaded : Bool) (y : ℝ) (names : List String) :
    ∃ g b, groundAsFlat xMinMax shaded y names = some g ∧ g.segs.flatMap PSeg.all = [b] ∧
      b.line = ⟨⟨(xMinMax.getD (-100, 100)).1, y⟩, ⟨(xMinMax.getD (-100, 100)).2, y⟩⟩ ∧
      b.shaded = shaded ∧ b.normal = ⟨0, 1⟩ ∧ b.params = names.map (fun x => (x, .nothing)) ∧
      g.boundary = [b.line.b1, b.line.b2] ∧
      pSideShadedLength g.segs = if shaded then b.line.length else 0 := by
  obtain ⟨s, hs, h1, h2, h3, -⟩ := segFromLine_some (groundExtent xMinMax y) shaded (some ⟨0, 1⟩) none
    names
  have hside : mkSide [s] = some [s] := by
    refine if_pos ?_
    rw [isCollinear, List.map_cons, List.map_nil, h3]
    exact trivial
  refine ⟨⟨[s], groundExtent xMinMax y⟩,
    surfFromLine (groundExtent xMinMax y) shaded (some ⟨0, 1⟩) names, ?_, ?_, rfl, rfl, rfl, rfl, rfl,
    ?_⟩
  · simp only [groundAsFlat, hs, hside, Option.bind_some, Option.map_some]
  · cases shaded <;> simp [PSeg.all, h1, h2]
  · cases shaded <;>
      simp [pSideShadedLength, collLength_sum, h2, surfFromLine]

/-- Surfaces at the height of the ground. -/
def OnGround (s : GSurf) : Prop := s.line.b1.y = Y_GROUND ∧ s.line.b2.y = Y_GROUND

theorem cutSurfaces_y {l : Line} (h : l.b1.y = Y_GROUND ∧ l.b2.y = Y_GROUND) (cuts : List XR) :
    ∀ s ∈ cutSurfaces l cuts, s.b1.y = Y_GROUND ∧ s.b2.y = Y_GROUND := by
  induction cuts generalizing l with
  | nil => intro s hs; rw [cutSurfaces, List.mem_singleton] at hs; rw [hs]; exact h
  | cons c cs ih =>
    intro s hs
    rw [cutSurfaces, List.mem_cons] at hs
    rcases hs with rfl | hs
    · exact h
    · exact ih (l := coordsRightOfCut l c) h s hs

theorem nonPoint_onGround {l : Line} (h : l.b1.y = Y_GROUND ∧ l.b2.y = Y_GROUND) (cuts : List XR)
    (q : ℕ → ℝ) : ∀ s ∈ nonPointSurfaces l cuts q, OnGround s := by
  intro s hs
  have hs := (List.mem_filter.1 hs).1
  unfold elSurfaces at hs
  split_ifs at hs
  · simp at hs
  · obtain ⟨x, hx, rfl⟩ := List.mem_map.1 hs
    exact cutSurfaces_y h cuts x.1 (List.fst_mem_of_mem_zipIdx hx)

theorem mergeWith_onGround {c : Option GSurf} {s : GSurf} (hc : ∀ x ∈ c, OnGround x)
    (hs : OnGround s) : OnGround (mergeWith c s) := by
  cases c with
  | none => exact hs
  | some c => exact ⟨(hc c rfl).1, hs.2⟩

/-- What the loops over surfaces keep: all surfaces are on the ground. -/
def StOnGround (st : List GSurf × Option GSurf) : Prop :=
  (∀ s ∈ st.1, OnGround s) ∧ ∀ x ∈ st.2, OnGround x

theorem mergeSurfStep_onGround (lastEl : Bool) (n : ℕ) {st : List GSurf × Option GSurf}
    {s : GSurf × ℕ} (hst : StOnGround st) (hs : OnGround s.1) :
    StOnGround (mergeSurfStep lastEl n st s) := by
  have hm := mergeWith_onGround hst.2 hs
  have happ : ∀ t, OnGround t → ∀ x ∈ st.1 ++ [t], OnGround x := by
    intro t ht x hx
    rcases List.mem_append.1 hx with hx | hx
    · exact hst.1 x hx
    · rw [List.mem_singleton.1 hx]; exact ht
  unfold mergeSurfStep
  have h' : OnGround (if s.2 = 0 then mergeWith st.2 s.1 else s.1) := by split_ifs <;> assumption
  dsimp only
  split_ifs at h' ⊢
  all_goals first
    | exact ⟨happ _ h', hst.2⟩
    | exact ⟨hst.1, by simpa using h'⟩

theorem foldl_inv {α β : Type*} (P : β → Prop) (f : β → α → β) (l : List α) (b : β) (hb : P b)
    (h : ∀ b, P b → ∀ a ∈ l, P (f b a)) : P (l.foldl f b) := by
  induction l generalizing b with
  | nil => exact hb
  | cons a l ih =>
    exact ih _ (h b hb a List.mem_cons_self) fun b hb x hx => h b hb x (List.mem_cons_of_mem _ hx)

theorem mergeLoop_onGround {els : List (List GSurf)} (h : ∀ e ∈ els, ∀ s ∈ e, OnGround s) :
    ∀ s ∈ mergeLoop els, OnGround s := by
  have : StOnGround (els.zipIdx.foldl
      (fun st e => mergeEl (decide (e.2 = els.length - 1)) st e.1) ([], none)) := by
    refine foldl_inv StOnGround _ _ _ ⟨by simp, by simp⟩ fun st hst e he => ?_
    unfold mergeEl
    refine foldl_inv StOnGround _ _ _ hst fun st hst s hs => ?_
    exact mergeSurfStep_onGround _ _ hst
      (h e.1 (List.fst_mem_of_mem_zipIdx he) s.1 (List.fst_mem_of_mem_zipIdx hs))
  exact this.1

theorem shadedAt_onGround (g : GroundIn) (merge withCut : Bool) (q : ℕ → ℕ → ℝ) (qAll : ℝ) :
    ∀ s ∈ g.shadedAt merge withCut q qAll, OnGround s := by
  have hel : ∀ i, (g.shadowEl i).b1.y = Y_GROUND ∧ (g.shadowEl i).b2.y = Y_GROUND :=
    fun i => ⟨rfl, rfl⟩
  have hnp : ∀ i, ∀ s ∈ nonPointSurfaces (g.shadowEl i) g.cuts (q i), OnGround s := fun i =>
    nonPoint_onGround (hel i) _ _
  have hall : ∀ s ∈ g.nonPointShadows.map (fun i => (⟨g.shadowEl i, qAll⟩ : GSurf)), OnGround s := by
    intro s hs
    obtain ⟨i, -, rfl⟩ := List.mem_map.1 hs
    exact hel i
  intro s hs
  unfold GroundIn.shadedAt GroundIn.mergeShadowSurfaces at hs
  dsimp only at hs
  split_ifs at hs
  · refine mergeLoop_onGround ?_ s hs
    intro e he
    obtain ⟨i, -, rfl⟩ := List.mem_map.1 he
    exact hnp i
  · obtain ⟨e, he, hs⟩ := List.mem_flatten.1 hs
    obtain ⟨i, -, rfl⟩ := List.mem_map.1 he
    exact hnp i s hs
  · obtain ⟨i, -, hs⟩ := List.mem_flatMap.1 hs
    exact hnp i s hs
  · rw [List.mem_singleton.1 hs]
    exact ⟨rfl, rfl⟩
  · exact hall s hs
  · exact hall s hs

theorem illumAt_onGround (g : GroundIn) (withCut : Bool) (q : ℕ → ℕ → ℝ) (qAll : ℝ) :
    ∀ s ∈ g.illumAt withCut q qAll, OnGround s := by
  intro s hs
  unfold GroundIn.illumAt at hs
  split_ifs at hs
  · obtain ⟨i, -, hs⟩ := List.mem_flatMap.1 hs
    exact nonPoint_onGround ⟨rfl, rfl⟩ _ _ s hs
  · obtain ⟨i, -, rfl⟩ := List.mem_map.1 hs
    exact ⟨rfl, rfl⟩

/-- C79 (time steps).  The ground of every time step can be turned into a geometry (no check fails),
with or without cut points and merging.  Its surfaces are the illuminated and then the shaded ones, its
shaded length is the sum of the lengths of the latter, and its ends are the given ones (or -100 and
100); the ends have no effect on the surfaces. -/
theorem C79_at (g : GroundIn) (xMinMax : Option (ℝ × ℝ)) (merge withCut : Bool)
    (q qi : ℕ → ℕ → ℝ) (qAll qiAll : ℝ) :
    ∃ G, g.geometryAt xMinMax merge withCut q qi qAll qiAll = some G ∧
      (G.segs.flatMap PSeg.all).map (fun s => (s.line, s.shaded, s.params))
        = (g.illumAt withCut qi qiAll).map (fun s => (s.line, false, [("param", .scalar s.param)]))
          ++ (g.shadedAt merge withCut q qAll).map
            (fun s => (s.line, true, [("param", .scalar s.param)])) ∧
      pSideNSurfaces G.segs
        = (g.illumAt withCut qi qiAll).length + (g.shadedAt merge withCut q qAll).length ∧
      pSideShadedLength G.segs
        = ((g.shadedAt merge withCut q qAll).map fun s => s.line.length).sum ∧
      G.boundary = [⟨(xMinMax.getD (-100, 100)).1, 0⟩, ⟨(xMinMax.getD (-100, 100)).2, 0⟩] := by
  have hv : ∀ (sh : Bool) (l : List GSurf), (∀ s ∈ l, OnGround s) →
      ∀ s ∈ l.map (GSurf.toPSurf sh), s.shaded = sh ∧ s.normal.x = 0 := by
    intro sh l h s hs
    obtain ⟨x, hx, rfl⟩ := List.mem_map.1 hs
    refine ⟨rfl, ?_⟩
    simp only [GSurf.toPSurf, calcNormal, (h x hx).1, (h x hx).2, sub_self, neg_zero]
  obtain ⟨G, h1, h2, h3, h4, h5⟩ := C79_lists _ _ xMinMax Y_GROUND
    (hv true _ (shadedAt_onGround g merge withCut q qAll))
    (hv false _ (illumAt_onGround g withCut qi qiAll))
  refine ⟨G, h1, ?_, ?_, ?_, ?_⟩
  · rw [h2, List.map_append, List.map_map, List.map_map]
    rfl
  · rw [h3, List.length_map, List.length_map]
  · rw [h4, List.map_map]
    rfl
  · rw [h5]
    rfl

/-- C79 (shaded length).  If the shadows are in order and none is tiny, the geometry has the shaded
length of the ground at the time step. -/
theorem C79_shaded_length (g : GroundIn) (xMinMax : Option (ℝ × ℝ)) (merge withCut : Bool)
    (q qi : ℕ → ℕ → ℝ) (qAll qiAll : ℝ) (ho : g.Ordered) (hc : g.cuts ≠ []) (ht : g.NoTinyShadow)
    (G : PGround) (hG : g.geometryAt xMinMax merge withCut q qi qAll qiAll = some G) :
    pSideShadedLength G.segs = g.shadedLength := by
  obtain ⟨G', h1, -, -, h4, -⟩ := C79_at g xMinMax merge withCut q qi qAll qiAll
  rw [hG] at h1
  obtain rfl := Option.some.inj h1
  rw [h4]
  exact (C42_shaded g merge withCut q qAll ho hc ht).total

/-- Non-vacuity for C79: a ground with two touching shadows and a cut point inside the second one.  Its
geometry has five meters in the shade, also if the ends are given so that they leave out a part of it;
and a flat shaded ground from 0 to 3 has a single surface. -/
theorem C79_demo :
    (∃ G, demoGround.geometryAt (some (0, 3)) true true (fun _ _ => 0) (fun _ _ => 0) 0 0 = some G ∧
      pSideShadedLength G.segs = 5 ∧ G.boundary = [⟨0, 0⟩, ⟨3, 0⟩]) ∧
    ∃ G b, groundAsFlat (some (0, 3)) true 0 [] = some G ∧ G.segs.flatMap PSeg.all = [b] ∧
      b.line = ⟨⟨0, 0⟩, ⟨3, 0⟩⟩ ∧ pSideShadedLength G.segs = 3 := by
  constructor
  · obtain ⟨G, h1, -, -, -, h5⟩ := C79_at demoGround (some (0, 3)) true true (fun _ _ => 0)
      (fun _ _ => 0) 0 0
    refine ⟨G, h1, ?_, h5⟩
    rw [C79_shaded_length demoGround (some (0, 3)) true true _ _ 0 0 demoGround_ordered
      (by simp [demoGround]) demoGround_noTiny G h1]
    have e : demoGround.nRows = 2 := rfl
    have e2 : List.range 2 = [0, 1] := rfl
    simp only [GroundIn.shadedLength, e, e2, List.map_cons, List.map_nil, demoGround_el0,
      demoGround_el1, glen, List.sum_cons, List.sum_nil]
    norm_num
  · obtain ⟨G, b, h1, h2, h3, -, -, -, -, h8⟩ := C79_flat (some (0, 3)) true 0 []
    refine ⟨G, b, h1, h2, h3, ?_⟩
    rw [h8, h3, if_pos rfl]
    change (⟨⟨0, Y_GROUND⟩, ⟨3, Y_GROUND⟩⟩ : Line).length = 3
    rw [glen]
    norm_num

end
end PVF

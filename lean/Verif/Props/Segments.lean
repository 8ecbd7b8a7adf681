import Verif.Lemmas.Segments
import Verif.Props.FastDemo

/-!
# How sides are cut into segments (C73)
-/

namespace PVF

variable {ι : Type*} [Fintype ι]

/-! ## Values that do not involve segments -/

/-- Shaded length of a side, whatever its segments. -/
noncomputable def shadeAt (p : ArrayParams) (u : StepIn) (r : ℕ) (s : RowSide) : ℝ :=
  let sun := solar2dVector u.solarZenith u.solarAzimuth p.axisAzimuth
  sideShade p (arctan2 sun.y sun.x)
    (rotationFromTiltAzimuth u.surfaceAzimuth p.axisAzimuth u.surfaceTilt).deg r s

noncomputable def rotAt (p : ArrayParams) (u : StepIn) : ℝ :=
  (rotationFromTiltAzimuth u.surfaceAzimuth p.axisAzimuth u.surfaceTilt).deg

noncomputable def gndPart (p : ArrayParams) (u : StepIn) (r : ℕ) (s : RowSide) (sh' : Bool)
    (e z : ℕ) : ℝ → ℝ :=
  if decide (z ≤ r) = faceL (rotAt p u) s then gndStr p (decide (z ≤ r)) (rotAt p u) r
    ((fitStep p u).coords (.gnd sh' e z)).b1.x ((fitStep p u).coords (.gnd sh' e z)).b2.x else 0

noncomputable def rowPart (p : ArrayParams) (u : StepIn) (r : ℕ) (s : RowSide) (r' : ℕ)
    (s' : RowSide) : ℝ → ℝ → ℝ :=
  open Classical in
  if HasNb (faceL (rotAt p u) s) p.nRows r ∧ r' = nb (faceL (rotAt p u) s) r ∧ s' ≠ s then
    rowStr p (faceL (rotAt p u) s) (rotAt p u) r else 0

noncomputable def sideEnds (p : ArrayParams) (u : StepIn) (r : ℕ) (s : RowSide) (sh : Bool)
    (A : ℝ → ℝ) : ℝ :=
  ends p.width (rotAt p u) (shadeAt p u r s) sh A

/-- Light exchanged by two parts. -/
noncomputable def closedExchange (p : ArrayParams) (u : StepIn) : Piece → Piece → ℝ
  | .gnd _ _ _, .gnd _ _ _ => 0
  | .side r s sh, .gnd sh' e z => sideEnds p u r s sh (gndPart p u r s sh' e z)
  | .gnd sh' e z, .side r s sh => sideEnds p u r s sh (gndPart p u r s sh' e z)
  | .side r s sh, .side r' s' sh' =>
    sideEnds p u r s sh fun x => sideEnds p u r' s' sh' (rowPart p u r s r' s' x)

/-- The part is there. -/
def Piece.Of (p : ArrayParams) : Piece → Prop
  | .gnd sh e z => SurfRef.gnd sh e z ∈ surfaces p
  | .side r _ _ => r < p.nRows

theorem PhysicalArray.withCut {p : ArrayParams} (hp : PhysicalArray p) (c : ℕ → CutSpec) :
    PhysicalArray (p.withCut c) := ⟨hp.width_pos, hp.gcr_pos⟩

theorem PhysicalStep.withCut {p : ArrayParams} {u : StepIn} (hu : PhysicalStep p u)
    (c : ℕ → CutSpec) : PhysicalStep (p.withCut c) u :=
  ⟨hu.tilt_nonneg, hu.tilt_lt, hu.above, hu.sun_y, hu.sun_front, hu.shade_ok⟩

theorem Piece.of_withCut (p : ArrayParams) (c : ℕ → CutSpec) (X : Piece) :
    X.Of (p.withCut c) ↔ X.Of p := by
  cases X with
  | gnd sh e z => simp only [Piece.Of, mem_surfaces, mem_allRefs_gnd]; rfl
  | side r s sh => rfl

theorem ground_withCut (p : ArrayParams) (u : StepIn) (c : ℕ → CutSpec) :
    (fitStep (p.withCut c) u).ground = (fitStep p u).ground := rfl

theorem coords_gnd_withCut (p : ArrayParams) (u : StepIn) (c : ℕ → CutSpec) (sh : Bool) (e z : ℕ) :
    (fitStep (p.withCut c) u).coords (.gnd sh e z) = (fitStep p u).coords (.gnd sh e z) := by
  cases sh <;> simp only [StepGeom.coords, ground_withCut]

theorem closedExchange_withCut (p : ArrayParams) (u : StepIn) (c : ℕ → CutSpec) (X Y : Piece) :
    closedExchange (p.withCut c) u X Y = closedExchange p u X Y := by
  cases X with
  | gnd sh e z =>
    cases Y with
    | gnd sh' e' z' => rfl
    | side r s sh' =>
      simp only [closedExchange, gndPart, coords_gnd_withCut]
      rfl
  | side r s sh =>
    cases Y with
    | gnd sh' e z =>
      simp only [closedExchange, gndPart, coords_gnd_withCut]
      rfl
    | side r' s' sh' => rfl

theorem list_sum_map_sub {α : Type*} (l : List α) (f g : α → ℝ) :
    (l.map fun x => f x - g x).sum = (l.map f).sum - (l.map g).sum := by
  induction l with
  | nil => simp
  | cons a l ih => simp only [List.map_cons, List.sum_cons, ih]; ring

section
variable (p : ArrayParams) (u : ι → StepIn) (t : ι) (hp : PhysicalArray p)
    (hu : PhysicalStep p (u t))
    (hlen : ∀ b ∈ surfaces p, lengthAt p (u t) b = 0 ∨ lengthAt p (u t) b > TOL)
    (hcut : ∀ r < p.nRows, ∀ s, 0 < p.nSeg r s)
include hp hu hlen

theorem exchange_surf_gnd {r : ℕ} {s : RowSide} {k : ℕ} {sh sh' : Bool} {e z : ℕ}
    (ha : SurfRef.pv r s k sh ∈ surfaces p) (hb : SurfRef.gnd sh' e z ∈ surfaces p) :
    let i := pvIv p (rotationFromTiltAzimuth (u t).surfaceAzimuth p.axisAzimuth (u t).surfaceTilt)
      (solar2dVector (u t).solarZenith (u t).solarAzimuth p.axisAzimuth) r s k sh
    lengthAt p (u t) (.pv r s k sh) * vfBetween p (tsVfMatrix p u t) (.pv r s k sh) (.gnd sh' e z)
      = gndPart p (u t) r s sh' e z i.2 - gndPart p (u t) r s sh' e z i.1 := by
  intro i
  rw [vfBetween_eq ha hb]
  have := pvGnd_weighted
    (sun := solar2dVector (u t).solarZenith (u t).solarAzimuth p.axisAzimuth)
    (physical_of hp hu) (isEmptyTs fun t => fitStep p (u t))
    (fun x hx => length_lt_of_empty hx t)
    (fun a ha' => hlen a (mem_surfaces.2 ha')) (rotation_flatOk (u t) p) (ordered_of hp hu)
    (mem_surfaces.1 ha) (mem_surfaces.1 hb)
  exact this

theorem exchange_surf_pv {r r' : ℕ} {s s' : RowSide} {k k' : ℕ} {sh sh' : Bool}
    (ha : SurfRef.pv r s k sh ∈ surfaces p) (hb : SurfRef.pv r' s' k' sh' ∈ surfaces p) :
    let rot := rotationFromTiltAzimuth (u t).surfaceAzimuth p.axisAzimuth (u t).surfaceTilt
    let sun := solar2dVector (u t).solarZenith (u t).solarAzimuth p.axisAzimuth
    let i := pvIv p rot sun r s k sh
    let i' := pvIv p rot sun r' s' k' sh'
    let A := rowPart p (u t) r s r' s'
    lengthAt p (u t) (.pv r s k sh) * vfBetween p (tsVfMatrix p u t) (.pv r s k sh)
        (.pv r' s' k' sh')
      = (A i.2 i'.2 - A i.2 i'.1) - (A i.1 i'.2 - A i.1 i'.1) := by
  intro rot sun i i' A
  rw [vfBetween_eq ha hb]
  have := pvPv_weighted (sun := sun) (physical_of hp hu) (isEmptyTs fun t => fitStep p (u t))
    (fun x hx => length_lt_of_empty hx t)
    (fun a ha' => hlen a (mem_surfaces.2 ha')) (mem_surfaces.1 ha) (mem_surfaces.1 hb)
  exact this

omit hlen in
theorem side_sum {r : ℕ} {s : RowSide} (hn : 0 < p.nSeg r s) (sh : Bool) (A : ℝ → ℝ) :
    let rot := rotationFromTiltAzimuth (u t).surfaceAzimuth p.axisAzimuth (u t).surfaceTilt
    let sun := solar2dVector (u t).solarZenith (u t).solarAzimuth p.axisAzimuth
    ((List.range (p.nSeg r s)).map fun k =>
      A (pvIv p rot sun r s k sh).2 - A (pvIv p rot sun r s k sh).1).sum
      = sideEnds p (u t) r s sh A :=
  piece_ends (physical_of hp hu) hn sh A

include hcut

theorem seen_eq {r : ℕ} {s : RowSide} {k : ℕ} {sh : Bool} (ha : SurfRef.pv r s k sh ∈ surfaces p)
    (Y : Piece) (hY : Y.Of p) :
    let rot := rotationFromTiltAzimuth (u t).surfaceAzimuth p.axisAzimuth (u t).surfaceTilt
    let sun := solar2dVector (u t).solarZenith (u t).solarAzimuth p.axisAzimuth
    let i := pvIv p rot sun r s k sh
    let A : ℝ → ℝ := match Y with
      | .gnd sh' e z => gndPart p (u t) r s sh' e z
      | .side r' s' sh' => fun x => sideEnds p (u t) r' s' sh' (rowPart p (u t) r s r' s' x)
    ((Y.surfs p).map fun b => lengthAt p (u t) (.pv r s k sh)
      * vfBetween p (tsVfMatrix p u t) (.pv r s k sh) b).sum = A i.2 - A i.1 := by
  intro rot sun i A
  cases Y with
  | gnd sh' e z =>
    simp only [Piece.surfs, List.map_cons, List.map_nil, List.sum_cons, List.sum_nil, add_zero]
    exact exchange_surf_gnd p u t hp hu hlen ha hY
  | side r' s' sh' =>
    have hn := hcut r' hY s'
    have e1 : ∀ x, A x = _ := fun x => (side_sum p u t hp hu hn sh' (rowPart p (u t) r s r' s' x)).symm
    rw [e1, e1, ← list_sum_map_sub]
    simp only [Piece.surfs, List.map_map, Function.comp_def]
    congr 1
    apply List.map_congr_left
    intro k' hk'
    have hb : SurfRef.pv r' s' k' sh' ∈ surfaces p :=
      mem_surfaces.2 (mem_allRefs_pv.2 ⟨hY, List.mem_range.1 hk'⟩)
    exact exchange_surf_pv p u t hp hu hlen ha hb

theorem exchange_eq (X Y : Piece) (hX : X.Of p) (hY : Y.Of p) :
    exchange p (u t) (tsVfMatrix p u t) X Y = closedExchange p (u t) X Y := by
  cases X with
  | gnd sh e z =>
    cases Y with
    | gnd sh' e' z' =>
      simp only [exchange, Piece.surfs, List.map_cons, List.map_nil, List.sum_cons, List.sum_nil,
        add_zero, closedExchange]
      rw [vfBetween_eq hX hY]
      simp [entryVF]
    | side r s sh' =>
      simp only [exchange, Piece.surfs, List.map_cons, List.map_nil, List.sum_cons, List.sum_nil,
        add_zero, List.map_map, Function.comp_def, closedExchange]
      rw [← side_sum p u t hp hu (hcut r hY s) sh']
      congr 1
      apply List.map_congr_left
      intro k hk
      have hb : SurfRef.pv r s k sh' ∈ surfaces p :=
        mem_surfaces.2 (mem_allRefs_pv.2 ⟨hY, List.mem_range.1 hk⟩)
      exact (reciprocity_point hX hb (hlen _ hX) (hlen _ hb)).trans
        (exchange_surf_gnd p u t hp hu hlen hb hX)
  | side r s sh =>
    have key : ∀ A : ℝ → ℝ, (∀ k, SurfRef.pv r s k sh ∈ surfaces p →
        ((Y.surfs p).map fun b => lengthAt p (u t) (.pv r s k sh)
          * vfBetween p (tsVfMatrix p u t) (.pv r s k sh) b).sum
        = A (pvIv p (rotationFromTiltAzimuth (u t).surfaceAzimuth p.axisAzimuth (u t).surfaceTilt)
            (solar2dVector (u t).solarZenith (u t).solarAzimuth p.axisAzimuth) r s k sh).2
          - A (pvIv p (rotationFromTiltAzimuth (u t).surfaceAzimuth p.axisAzimuth
            (u t).surfaceTilt)
            (solar2dVector (u t).solarZenith (u t).solarAzimuth p.axisAzimuth) r s k sh).1) →
        exchange p (u t) (tsVfMatrix p u t) (.side r s sh) Y = sideEnds p (u t) r s sh A := by
      intro A hA
      rw [← side_sum p u t hp hu (hcut r hX s) sh]
      simp only [exchange, Piece.surfs, List.map_map, Function.comp_def]
      congr 1
      apply List.map_congr_left
      intro k hk
      exact hA k (mem_surfaces.2 (mem_allRefs_pv.2 ⟨hX, List.mem_range.1 hk⟩))
    cases Y with
    | gnd sh' e z => exact key _ fun k hk => seen_eq p u t hp hu hlen hcut hk (.gnd sh' e z) hY
    | side r' s' sh' => exact key _ fun k hk => seen_eq p u t hp hu hlen hcut hk (.side r' s' sh') hY

end

/-- Every surface is a point or longer than the tolerance at that time step, and every side has
segments. -/
structure CleanCut (p : ArrayParams) (u : StepIn) : Prop where
  lengths : ∀ b ∈ surfaces p, lengthAt p u b = 0 ∨ lengthAt p u b > TOL
  segments : ∀ r < p.nRows, ∀ s, 0 < p.nSeg r s

section
variable (p : ArrayParams) (u : ι → StepIn) (t : ι) (hp : PhysicalArray p)
    (hu : PhysicalStep p (u t)) (c c' : ℕ → CutSpec) (hc : CleanCut (p.withCut c) (u t))
    (hc' : CleanCut (p.withCut c') (u t))
include hp hu hc hc'

/-- C73: light exchanged between parts of sides and of the ground does not depend on how the sides
are cut into segments. -/
theorem C73_exchange (X Y : Piece) (hX : X.Of p) (hY : Y.Of p) :
    exchange (p.withCut c) (u t) (tsVfMatrix (p.withCut c) u t) X Y
      = exchange (p.withCut c') (u t) (tsVfMatrix (p.withCut c') u t) X Y := by
  rw [exchange_eq _ u t (hp.withCut c) (hu.withCut c) hc.lengths hc.segments X Y
      ((X.of_withCut p c).2 hX) ((Y.of_withCut p c).2 hY),
    exchange_eq _ u t (hp.withCut c') (hu.withCut c') hc'.lengths hc'.segments X Y
      ((X.of_withCut p c').2 hX) ((Y.of_withCut p c').2 hY),
    closedExchange_withCut, closedExchange_withCut]

/-- C73: lengths of shaded and illuminated parts of sides do not depend on the cuts. -/
theorem C73_length (X : Piece) (hX : X.Of p) :
    pieceTotal (p.withCut c) (u t) X (fun _ => 1) = pieceTotal (p.withCut c') (u t) X (fun _ => 1) := by
  cases X with
  | gnd sh e z => simp only [pieceTotal, Piece.surfs, List.map_cons, List.map_nil, coords_gnd_withCut]
  | side r s sh =>
    have key : ∀ c, CleanCut (p.withCut c) (u t) →
        pieceTotal (p.withCut c) (u t) (.side r s sh) (fun _ => 1)
          = sideEnds p (u t) r s sh (fun x => x) := by
      intro c hc
      have := side_sum (p.withCut c) u t (hp.withCut c) (hu.withCut c) (hc.segments r hX s) sh
        (fun x => x)
      refine Eq.trans ?_ this
      simp only [pieceTotal, Piece.surfs, List.map_map, Function.comp_def, mul_one]
      congr 1
      apply List.map_congr_left
      intro k hk
      have h := physical_of (hp.withCut c) (hu.withCut c)
      exact length_pv (List.mem_range.1 hk) sh h.width.le h.lo h.hi
    rw [key c hc, key c' hc']

/-- C73: how much a surface sees of a part does not depend on how the part is cut. -/
theorem C73_seen (a : SurfRef) (ha : a ∈ surfaces (p.withCut c)) (ha' : a ∈ surfaces (p.withCut c'))
    (hsame : ∀ r s k sh, a = .pv r s k sh → (p.withCut c).nSeg r s = (p.withCut c').nSeg r s)
    (hl : lengthAt (p.withCut c) (u t) a > TOL) (Y : Piece) (hY : Y.Of p) :
    ((Y.surfs (p.withCut c)).map (vfBetween (p.withCut c) (tsVfMatrix (p.withCut c) u t) a)).sum
      = ((Y.surfs (p.withCut c')).map
        (vfBetween (p.withCut c') (tsVfMatrix (p.withCut c') u t) a)).sum := by
  have hll : lengthAt (p.withCut c') (u t) a = lengthAt (p.withCut c) (u t) a := by
    cases a with
    | gnd sh e z => simp only [lengthAt, coords_gnd_withCut]
    | pv r s k sh =>
      have h := physical_of (hp.withCut c) (hu.withCut c)
      have h' := physical_of (hp.withCut c') (hu.withCut c')
      have e1 := length_pv (p := p.withCut c) (sun := solar2dVector (u t).solarZenith
        (u t).solarAzimuth p.axisAzimuth) (mem_allRefs_pv.1 (mem_surfaces.1 ha)).2 sh h.width.le
        h.lo h.hi
      have e2 := length_pv (p := p.withCut c') (sun := solar2dVector (u t).solarZenith
        (u t).solarAzimuth p.axisAzimuth) (mem_allRefs_pv.1 (mem_surfaces.1 ha')).2 sh h'.width.le
        h'.lo h'.hi
      refine e2.trans (Eq.trans ?_ e1.symm)
      unfold pvIv
      rw [hsame r s k sh rfl]
      rfl
  have key : ((Y.surfs (p.withCut c)).map fun b => lengthAt (p.withCut c) (u t) a
        * vfBetween (p.withCut c) (tsVfMatrix (p.withCut c) u t) a b).sum
      = ((Y.surfs (p.withCut c')).map fun b => lengthAt (p.withCut c') (u t) a
        * vfBetween (p.withCut c') (tsVfMatrix (p.withCut c') u t) a b).sum := by
    cases a with
    | gnd sh e z =>
      have := C73_exchange p u t hp hu c c' hc hc' (.gnd sh e z) Y
        (((Piece.gnd sh e z).of_withCut p c).1 ha) hY
      simp only [exchange, show ∀ q, (Piece.gnd sh e z).surfs q = [.gnd sh e z] from fun _ => rfl,
        List.map_cons, List.map_nil, List.sum_cons, List.sum_nil, add_zero] at this
      exact this
    | pv r s k sh =>
      have h1 := seen_eq (p.withCut c) u t (hp.withCut c) (hu.withCut c) hc.lengths hc.segments ha Y
        ((Y.of_withCut p c).2 hY)
      have h2 := seen_eq (p.withCut c') u t (hp.withCut c') (hu.withCut c') hc'.lengths hc'.segments
        ha' Y ((Y.of_withCut p c').2 hY)
      have hiv : ∀ rot sun, pvIv (p.withCut c) rot sun r s k sh = pvIv (p.withCut c') rot sun r s k sh := by
        intro rot sun
        unfold pvIv
        rw [hsame r s k sh rfl]
        rfl
      refine h1.trans (Eq.trans ?_ h2.symm)
      simp only [hiv]
      cases Y with
      | gnd sh' e z =>
        simp only [gndPart, coords_gnd_withCut]
        rfl
      | side r' s' sh' => rfl
  rw [hll, List.sum_map_mul_left, List.sum_map_mul_left] at key
  exact mul_left_cancel₀ (TOL_pos.trans hl).ne' key

omit hp hu hc hc' in
/-- All parts of an array. -/
def allPieces (p : ArrayParams) : List Piece :=
  ((List.range p.nRows).flatMap fun e => (List.range (p.nRows + 1)).map fun z => Piece.gnd true e z)
  ++ ((List.range (p.nRows + 1)).flatMap fun e =>
      (List.range (p.nRows + 1)).map fun z => Piece.gnd false e z)
  ++ (List.range p.nRows).flatMap fun r =>
    [Piece.side r .front false, .side r .front true, .side r .back false, .side r .back true]

omit hp hu hc hc' in
theorem sum_allPieces (p : ArrayParams) (f : SurfRef → ℝ) :
    ∑ b ∈ surfaces p, f b = ((allPieces p).map fun Y => ((Y.surfs p).map f).sum).sum := by
  rw [surfaces, List.sum_toFinset _ (nodup_allRefs p)]
  simp only [allRefs, groundRefs, allPieces, List.map_append, List.sum_append, sum_map_flatMap,
    List.map_map, Function.comp_def, Piece.surfs, List.map_cons, List.map_nil, List.sum_cons,
    List.sum_nil, add_zero]
  congr 2
  apply List.map_congr_left
  intro r _
  simp only [rowRefs, sideRefs, List.map_append, List.sum_append, sum_map_flatMap, List.map_cons,
    List.map_nil, List.sum_cons, List.sum_nil, add_zero, List.sum_map_add]
  ring

omit hp hu hc hc' in
theorem allPieces_of (p : ArrayParams) {Y : Piece} (h : Y ∈ allPieces p) : Y.Of p := by
  simp only [allPieces, List.mem_append, List.mem_flatMap, List.mem_range, List.mem_map,
    List.mem_cons, List.not_mem_nil, or_false] at h
  rcases h with (⟨e, he, z, hz, rfl⟩ | ⟨e, he, z, hz, rfl⟩) | ⟨r, hr, rfl | rfl | rfl | rfl⟩
  · exact mem_surfaces.2 (mem_allRefs_gnd.2 ⟨by simpa using he, hz⟩)
  · exact mem_surfaces.2 (mem_allRefs_gnd.2 ⟨by simpa using he, hz⟩)
  all_goals exact hr

omit hp hu hc hc' in
theorem surfs_mem {p : ArrayParams} {X : Piece} (hX : X.Of p) {a : SurfRef} (ha : a ∈ X.surfs p) :
    a ∈ surfaces p := by
  cases X with
  | gnd sh e z =>
    simp only [Piece.surfs, List.mem_singleton] at ha
    rw [ha]; exact hX
  | side r s sh =>
    simp only [Piece.surfs, List.mem_map, List.mem_range] at ha
    obtain ⟨k, hk, rfl⟩ := ha
    exact mem_surfaces.2 (mem_allRefs_pv.2 ⟨hX, hk⟩)

omit hp hu hc hc' in
theorem list_sum_comm {α β : Type*} (l : List α) (m : List β) (f : α → β → ℝ) :
    (l.map fun a => (m.map fun b => f a b).sum).sum
      = (m.map fun b => (l.map fun a => f a b).sum).sum := by
  induction l with
  | nil => simp
  | cons a l ih => simp only [List.map_cons, List.sum_cons, ih, List.sum_map_add]

omit hp hu hc hc' in
theorem sky_eq (p : ArrayParams) (u : ι → StepIn) (t : ι) (hc : CleanCut p (u t)) (X : Piece)
    (hX : X.Of p) :
    pieceTotal p (u t) X (vfToSky p (tsVfMatrix p u t))
      = pieceTotal p (u t) X (fun _ => 1)
        - ((allPieces p).map fun Y => exchange p (u t) (tsVfMatrix p u t) X Y).sum := by
  unfold exchange
  rw [← list_sum_comm]
  unfold pieceTotal
  rw [← list_sum_map_sub]
  congr 1
  apply List.map_congr_left
  intro a ha
  have ha := surfs_mem hX ha
  have e : ∀ Y : Piece, ((Y.surfs p).map fun b => ((fitStep p (u t)).coords a).length
      * vfBetween p (tsVfMatrix p u t) a b).sum = ((Y.surfs p).map fun b => lengthAt p (u t) a
      * vfBetween p (tsVfMatrix p u t) a b).sum := fun Y => rfl
  simp only [e]
  rw [← sum_allPieces p fun b => lengthAt p (u t) a * vfBetween p (tsVfMatrix p u t) a b,
    ← Finset.mul_sum]
  change lengthAt p (u t) a * _ = lengthAt p (u t) a * 1 - _
  rcases hc.lengths a ha with h0 | hl
  · rw [h0]; ring
  · have := row_sum_surfaces ha hl
    rw [← this]; ring

/-- C73: how much of the sky a part sees does not depend on the cuts. -/
theorem C73_sky (X : Piece) (hX : X.Of p) :
    pieceTotal (p.withCut c) (u t) X (vfToSky (p.withCut c) (tsVfMatrix (p.withCut c) u t))
      = pieceTotal (p.withCut c') (u t) X
          (vfToSky (p.withCut c') (tsVfMatrix (p.withCut c') u t)) := by
  rw [sky_eq _ u t hc X ((X.of_withCut p c).2 hX), sky_eq _ u t hc' X ((X.of_withCut p c').2 hX),
    C73_length p u t hp hu c c' hc hc' X hX]
  congr 2
  apply List.map_congr_left
  intro Y hY
  exact C73_exchange p u t hp hu c c' hc hc' X Y hX
    ((Y.of_withCut p c).1 (allPieces_of (p.withCut c) hY))

/-- C73: in fast mode, the view factors of the shaded or illuminated part of the back of a row,
averaged over its length, do not depend on the cuts. -/
theorem C73_fast (r : ℕ) (hr : r < p.nRows) (sh : Bool) :
    let X := Piece.side r .back sh
    let v := fun c a => fastVF (p.withCut c) (fitStep (p.withCut c) (u t)) r
      ((fitStep (p.withCut c) (u t)).coords a)
    (∀ e < p.nRows, pieceTotal (p.withCut c) (u t) X (fun a => (v c a).toEachGndShadow.getD e 0)
      = pieceTotal (p.withCut c') (u t) X (fun a => (v c' a).toEachGndShadow.getD e 0)) ∧
    ∀ f ∈ [FastVF.toGndShaded, FastVF.toGndIllum, FastVF.toGndTotal, FastVF.toPvrowTotal,
        FastVF.toPvrowShaded, FastVF.toPvrowIllum, FastVF.toSky],
      pieceTotal (p.withCut c) (u t) X (fun a => f (v c a))
        = pieceTotal (p.withCut c') (u t) X (fun a => f (v c' a)) := by
  intro X v
  -- sums of values that are differences of a function that does not depend on the cuts
  have key : ∀ c, CleanCut (p.withCut c) (u t) → ∀ (f : SurfRef → ℝ) (A : ℝ → ℝ),
      (∀ k, SurfRef.pv r .back k sh ∈ allRefs (p.withCut c) →
        lengthAt (p.withCut c) (u t) (.pv r .back k sh) * f (.pv r .back k sh)
          = A (pvIv (p.withCut c) (rotationFromTiltAzimuth (u t).surfaceAzimuth p.axisAzimuth
              (u t).surfaceTilt) (solar2dVector (u t).solarZenith (u t).solarAzimuth p.axisAzimuth)
              r .back k sh).2
            - A (pvIv (p.withCut c) (rotationFromTiltAzimuth (u t).surfaceAzimuth p.axisAzimuth
              (u t).surfaceTilt) (solar2dVector (u t).solarZenith (u t).solarAzimuth p.axisAzimuth)
              r .back k sh).1) →
      pieceTotal (p.withCut c) (u t) X f = sideEnds p (u t) r .back sh A := by
    intro c hc f A hA
    have := side_sum (p.withCut c) u t (hp.withCut c) (hu.withCut c) (hc.segments r hr .back) sh A
    refine Eq.trans ?_ this
    simp only [pieceTotal, X, Piece.surfs, List.map_map, Function.comp_def]
    congr 1
    apply List.map_congr_left
    intro k hk
    exact hA k (mem_allRefs_pv.2 ⟨hr, List.mem_range.1 hk⟩)
  have each : ∀ c, CleanCut (p.withCut c) (u t) → ∀ e < p.nRows,
      pieceTotal (p.withCut c) (u t) X (fun a => (v c a).toEachGndShadow.getD e 0)
        = sideEnds p (u t) r .back sh (fastEachPart p (fitStep p (u t)) r e) := by
    intro c hc e he
    refine key c hc _ _ fun k hk => ?_
    exact fast_each_weighted (physical_of (hp.withCut c) (hu.withCut c))
      (rotation_flatOk (u t) (p.withCut c)) (ordered_of (hp.withCut c) (hu.withCut c)) hk
      (hc.lengths _ (mem_surfaces.2 hk)) he
  have gnd : ∀ c, CleanCut (p.withCut c) (u t) →
      pieceTotal (p.withCut c) (u t) X (fun a => (v c a).toGndTotal)
        = sideEnds p (u t) r .back sh (fastGndPart p (fitStep p (u t)) r) := by
    intro c hc
    refine key c hc _ _ fun k hk => ?_
    exact fast_gnd_weighted (physical_of (hp.withCut c) (hu.withCut c))
      (rotation_flatOk (u t) (p.withCut c)) hk (hc.lengths _ (mem_surfaces.2 hk))
  have row : ∀ c, CleanCut (p.withCut c) (u t) →
      pieceTotal (p.withCut c) (u t) X (fun a => (v c a).toPvrowTotal)
        = sideEnds p (u t) r .back sh (fastRowPart p (fitStep p (u t)) r p.width) := by
    intro c hc
    refine key c hc _ _ fun k hk => ?_
    exact (fast_row_weighted (physical_of (hp.withCut c) (hu.withCut c)) hk
      (hc.lengths _ (mem_surfaces.2 hk)) hc.segments).1
  have rowSh : ∀ c, CleanCut (p.withCut c) (u t) →
      pieceTotal (p.withCut c) (u t) X (fun a => (v c a).toPvrowShaded)
        = sideEnds p (u t) r .back sh (fastRowPart p (fitStep p (u t)) r
          (if rotAt p (u t) = 0 then 0 else
            shadeAt p (u t) (nb (faceL (rotAt p (u t)) .back) r) .front)) := by
    intro c hc
    refine key c hc _ _ fun k hk => ?_
    exact (fast_row_weighted (physical_of (hp.withCut c) (hu.withCut c)) hk
      (hc.lengths _ (mem_surfaces.2 hk)) hc.segments).2
  -- linear combinations
  have add : ∀ (c : ℕ → CutSpec) (f g : SurfRef → ℝ), pieceTotal (p.withCut c) (u t) X (fun a => f a - g a)
      = pieceTotal (p.withCut c) (u t) X f - pieceTotal (p.withCut c) (u t) X g := by
    intro c f g
    unfold pieceTotal
    rw [← list_sum_map_sub]
    congr 1
    apply List.map_congr_left
    intro a _
    ring
  have shd : ∀ c, CleanCut (p.withCut c) (u t) →
      pieceTotal (p.withCut c) (u t) X (fun a => (v c a).toGndShaded)
        = ((List.range p.nRows).map fun e =>
          sideEnds p (u t) r .back sh (fastEachPart p (fitStep p (u t)) r e)).sum := by
    intro c hc
    have h1 : ((List.range p.nRows).map fun e =>
          sideEnds p (u t) r .back sh (fastEachPart p (fitStep p (u t)) r e)).sum
        = ((List.range p.nRows).map fun e =>
          pieceTotal (p.withCut c) (u t) X (fun a => (v c a).toEachGndShadow.getD e 0)).sum := by
      congr 1
      apply List.map_congr_left
      intro e he
      exact (each c hc e (List.mem_range.1 he)).symm
    rw [h1]
    unfold pieceTotal
    rw [list_sum_comm]
    congr 1
    apply List.map_congr_left
    intro a _
    rw [List.sum_map_mul_left]
    congr 1
    change (v c a).toEachGndShadow.sum = _
    have hlen : (v c a).toEachGndShadow.length = p.nRows := by
      change (List.map _ (List.range p.nRows)).length = _
      simp
    rw [← hlen]
    change _ = (List.map (fun e => (v c a).toEachGndShadow.getD e 0) _).sum
    generalize (v c a).toEachGndShadow = l
    congr 1
    apply List.ext_getElem
    · simp
    · intro i h1 h2
      rw [List.getElem_map, List.getElem_range, List.getD_eq_getElem _ _ h1]
  have sk : ∀ c, CleanCut (p.withCut c) (u t) →
      pieceTotal (p.withCut c) (u t) X (fun a => (v c a).toSky)
        = pieceTotal (p.withCut c) (u t) X (fun _ => 1)
          - pieceTotal (p.withCut c) (u t) X (fun a => (v c a).toGndTotal)
          - pieceTotal (p.withCut c) (u t) X (fun a => (v c a).toPvrowTotal) := by
    intro c hc
    rw [← add, ← add]
    rfl
  have ill : ∀ c, CleanCut (p.withCut c) (u t) →
      pieceTotal (p.withCut c) (u t) X (fun a => (v c a).toGndIllum)
        = pieceTotal (p.withCut c) (u t) X (fun a => (v c a).toGndTotal)
          - pieceTotal (p.withCut c) (u t) X (fun a => (v c a).toGndShaded) := by
    intro c hc
    rw [← add]
    rfl
  have rowIll : ∀ c, CleanCut (p.withCut c) (u t) →
      pieceTotal (p.withCut c) (u t) X (fun a => (v c a).toPvrowIllum)
        = pieceTotal (p.withCut c) (u t) X (fun a => (v c a).toPvrowTotal)
          - pieceTotal (p.withCut c) (u t) X (fun a => (v c a).toPvrowShaded) := by
    intro c hc
    rw [← add]
    rfl
  refine ⟨fun e he => (each c hc e he).trans (each c' hc' e he).symm, ?_⟩
  intro f hf
  simp only [List.mem_cons, List.not_mem_nil, or_false] at hf
  rcases hf with rfl | rfl | rfl | rfl | rfl | rfl | rfl
  · exact (shd c hc).trans (shd c' hc').symm
  · rw [ill c hc, ill c' hc', gnd c hc, gnd c' hc', shd c hc, shd c' hc']
  · exact (gnd c hc).trans (gnd c' hc').symm
  · exact (row c hc).trans (row c' hc').symm
  · exact (rowSh c hc).trans (rowSh c' hc').symm
  · rw [rowIll c hc, rowIll c' hc', row c hc, row c' hc', rowSh c hc, rowSh c' hc']
  · rw [sk c hc, sk c' hc', C73_length p u t hp hu c c' hc hc' X hr, gnd c hc, gnd c' hc', row c hc,
      row c' hc']

/-- C73: if all segments of the back of a row receive the same light from the irradiance model, the
total incident irradiance that fast mode gives for its shaded and for its illuminated part does
not depend on the cuts. -/
theorem C73_fast_qinc (s : IrrStep) (r : ℕ) (hr : r < p.nRows) (sh : Bool)
    (hs : ∀ k k', (s.comp (.pv r .back k sh)).sum = (s.comp (.pv r .back k' sh)).sum) :
    let X := Piece.side r .back sh
    let qinc := fun c a => ((runFastMode (p.withCut c) (fitStep (p.withCut c) (u t)) s r none a).map
      FastOut.qinc).getD 0
    pieceTotal (p.withCut c) (u t) X (qinc c) = pieceTotal (p.withCut c') (u t) X (qinc c') := by
  intro X qinc
  set v := fun c a => fastVF (p.withCut c) (fitStep (p.withCut c) (u t)) r
      ((fitStep (p.withCut c) (u t)).coords a) with hv
  have key : ∀ c, pieceTotal (p.withCut c) (u t) X (qinc c)
      = pieceTotal (p.withCut c) (u t) X (fun a => (v c a).toGndShaded) * (s.albedo * s.gndShaded)
        + pieceTotal (p.withCut c) (u t) X (fun a => (v c a).toGndIllum) * (s.albedo * s.gndIllum)
        + pieceTotal (p.withCut c) (u t) X (fun a => (v c a).toPvrowShaded)
          * (s.rhoFront * s.pvrowShaded)
        + pieceTotal (p.withCut c) (u t) X (fun a => (v c a).toPvrowIllum)
          * (s.rhoFront * s.pvrowIllum)
        + pieceTotal (p.withCut c) (u t) X (fun a => (v c a).toSky) * s.sky
        + pieceTotal (p.withCut c) (u t) X (fun _ => 1) * (s.comp (.pv r .back 0 sh)).sum := by
    intro c
    unfold pieceTotal
    simp only [← List.sum_map_mul_right, ← List.sum_map_add]
    congr 1
    apply List.map_congr_left
    intro a ha
    simp only [X, Piece.surfs, List.mem_map, List.mem_range] at ha
    obtain ⟨k, hk, rfl⟩ := ha
    have hq : qinc c (.pv r .back k sh) = (fastSurface (p.withCut c) (fitStep (p.withCut c) (u t)) s
        r (.pv r .back k sh)).qinc := by
      simp only [qinc]
      rw [runFastMode_eq, if_pos]
      · rfl
      · simp only [fastTargets, pyIdx_nat, sideRefs, List.mem_flatMap, List.mem_range, List.mem_cons,
          List.not_mem_nil, or_false]
        exact ⟨k, hk, by cases sh <;> simp⟩
    rw [hq]
    simp only [fastSurface, sumComponents_eq, hs k 0, hv]
    ring
  obtain ⟨-, h⟩ := C73_fast p u t hp hu c c' hc hc' r hr sh
  rw [key, key, h FastVF.toGndShaded (by simp), h FastVF.toGndIllum (by simp),
    h FastVF.toPvrowShaded (by simp), h FastVF.toPvrowIllum (by simp), h FastVF.toSky (by simp),
    C73_length p u t hp hu c c' hc hc' X hr]

/-- C73: with the isotropic model, fast mode gives the same average incident irradiance for the
back of a row however it, or the fronts, are cut. -/
theorem C73_fast_isotropic (q : IrrParams) (w : IrrIn) (r : ℕ) (hr : r < p.nRows) (sh : Bool) :
    let X := Piece.side r .back sh
    let qinc := fun c a => ((runFastMode (p.withCut c) (fitStep (p.withCut c) (u t))
      (isotropicStep q w) r none a).map FastOut.qinc).getD 0
    pieceTotal (p.withCut c) (u t) X (qinc c) = pieceTotal (p.withCut c') (u t) X (qinc c') :=
  C73_fast_qinc p u t hp hu c c' hc hc' (isotropicStep q w) r hr sh fun _ _ => by
    cases sh <;> rfl

end

/-! ## A concrete case -/

/-- Two vertical rows: one and two segments per side in one array, three on fronts and four on
backs in the other. -/
def otherCut : ℕ → CutSpec := fun _ => { front := some 3, back := some 4 }

theorem other_nSeg (i : ℕ) (s : RowSide) :
    (vertArray.withCut otherCut).nSeg i s = match s with | .front => 3 | .back => 4 := by
  cases s <;> rfl

theorem vert_cleanCut : CleanCut (vertArray.withCut vertArray.cut) vertStep where
  lengths := vert_lengths
  segments := by
    intro r _ s
    change 0 < vertArray.nSeg r s
    cases s <;> simp only [vertArray, ArrayParams.nSeg, ArrayParams.nFront, ArrayParams.nBack] <;>
      split_ifs <;> simp

theorem other_cleanCut : CleanCut (vertArray.withCut otherCut) vertStep where
  lengths := by
    intro a hm
    cases a with
    | gnd sh e z =>
      have := vert_lengths (.gnd sh e z)
        (((Piece.gnd sh e z).of_withCut vertArray otherCut).1 hm)
      simp only [lengthAt, coords_gnd_withCut] at this ⊢
      exact this
    | pv i s k sh =>
      obtain ⟨hi, hk⟩ := mem_allRefs_pv.1 (mem_surfaces.1 hm)
      have hsh : sideShade (vertArray.withCut otherCut)
          (arctan2 (Real.sqrt 2 / 2) (-(Real.sqrt 2 / 2))) 90 i s = 0 := by
        change sideShade vertArray _ 90 i s = 0
        unfold sideShade rowShadedLengths
        rw [vert_alpha, vert_interrow]
        cases s <;> simp
      have hfit : fitStep (vertArray.withCut otherCut) vertStep
          = fitGeom (vertArray.withCut otherCut) ⟨90, false⟩
            ⟨-(Real.sqrt 2 / 2), Real.sqrt 2 / 2⟩ := by
        have h1 := vert_rot
        have h2 := vert_sun
        unfold fitStep
        change fitGeom _ (rotationFromTiltAzimuth vertStep.surfaceAzimuth vertArray.axisAzimuth
          vertStep.surfaceTilt) (solar2dVector vertStep.solarZenith vertStep.solarAzimuth
          vertArray.axisAzimuth) = _
        rw [h1, h2]
      have hw : (vertArray.withCut otherCut).width = 2 := rfl
      unfold lengthAt
      rw [hfit, length_pv hk sh (by rw [hw]; norm_num) (by norm_num) (by norm_num)]
      unfold pvIv
      simp only [hsh, hw, other_nSeg] at hk ⊢
      cases s <;> simp only at hk ⊢ <;> interval_cases k <;> cases sh <;>
        simp [tIv, tSeg, TOL] <;> norm_num
  segments := by
    intro r _ s
    rw [other_nSeg]
    cases s <;> simp

/-- The hypotheses of C73 can be met by different cuts. -/
theorem C73_demo (t : Fin 3) :
    vertArray.cut ≠ otherCut ∧
    ∀ sh, pieceTotal (vertArray.withCut vertArray.cut) vertStep (.side 0 .back sh)
        (fun a => ((runFastMode (vertArray.withCut vertArray.cut)
          (fitStep (vertArray.withCut vertArray.cut) vertStep) (isotropicStep demoIrrParams demoIrrIn)
          (0 : ℕ) none a).map FastOut.qinc).getD 0)
      = pieceTotal (vertArray.withCut otherCut) vertStep (.side 0 .back sh)
        (fun a => ((runFastMode (vertArray.withCut otherCut)
          (fitStep (vertArray.withCut otherCut) vertStep) (isotropicStep demoIrrParams demoIrrIn)
          (0 : ℕ) none a).map FastOut.qinc).getD 0) := by
  refine ⟨fun h => ?_, fun sh => ?_⟩
  · have := congrArg CutSpec.back (congrFun h 0)
    simp [vertArray, otherCut] at this
  · exact C73_fast_isotropic vertArray (fun _ : Fin 3 => vertStep) t vert_physicalArray
      vert_physicalStep vertArray.cut otherCut vert_cleanCut other_cleanCut demoIrrParams demoIrrIn 0
      (by simp [vertArray]) sh

end PVF

import Verif.Props.RowAt
import Verif.Model.Side
import Verif.Lemmas.RayScene

/-!
# C60: PV rows made from coordinates
-/

namespace PVF
noncomputable section

/-- Segment `g` consists of a single surface, which is part `k` of `n` equal parts of the line and has
the given shading status and normal vector; the parameters have no values. -/
def SegOf (l : Line) (shaded : Bool) (N : Pt) (names : List String) (n : ℕ) (g : PSeg) (k : ℕ) : Prop :=
  ∃ b : PSurf, g.illum.surfs = (if shaded = true then [] else [b]) ∧
    g.shaded.surfs = (if shaded = true then [b] else []) ∧
    b.line = ⟨lerp l.b1 l.b2 (k / n), lerp l.b1 l.b2 ((k + 1) / n)⟩ ∧ b.normal = N ∧
    b.shaded = shaded ∧ b.params = names.map fun x => (x, ParamVal.nothing)

theorem sideLines_eq (l : Line) (n : ℕ) :
    sideLines l n = (List.range n).map fun k : ℕ =>
      (⟨lerp l.b1 l.b2 (k / n), lerp l.b1 l.b2 ((k + 1) / n)⟩ : Line) := by
  unfold sideLines
  split_ifs with h
  · subst h
    simp only [List.range_one, List.map_cons, List.map_nil, List.cons.injEq, and_true]
    unfold lerp
    ext <;> simp
  · apply List.map_congr_left
    intro k _
    unfold dividePoint lerp
    push_cast
    rfl

theorem segFromLine_some (l : Line) (shaded : Bool) (normal : Option Pt) (index : Option ℕ)
    (names : List String) : ∃ g : PSeg, segFromLine l shaded normal index names = some g ∧
      g.illum.surfs = (if shaded = true then [] else [surfFromLine l shaded normal names]) ∧
      g.shaded.surfs = (if shaded = true then [surfFromLine l shaded normal names] else []) ∧
      g.normal = some (normal.getD (calcNormal l)) ∧ g.index = index := by
  obtain ⟨c, hc, c1, c2, c3⟩ := mkColl_single [surfFromLine l shaded normal names] shaded (by simp)
    (by simp [surfFromLine])
  obtain ⟨d, hd, d1, d2, d3⟩ := mkColl_single [] (!shaded) (by simp) (by simp)
  have hdn : d.normal = none := by rw [PColl.normal, d1]; rfl
  have hcn : c.normal = some (normal.getD (calcNormal l)) := by rw [PColl.normal, c1]; rfl
  unfold segFromLine
  rw [hc, hd]
  cases shaded
  · refine ⟨⟨c, d, index⟩, ?_, c1, d1, ?_, rfl⟩
    · simp only [Option.bind_some, Bool.false_eq_true, if_false, mkSeg]
      rw [if_pos ⟨by simpa using d2, c2, c3, d3, by rw [hdn]; simp⟩]
    · rw [PSeg.normal]; simp only [hcn]
  · refine ⟨⟨d, c, index⟩, ?_, d1, c1, ?_, rfl⟩
    · simp only [Option.bind_some, if_true, mkSeg]
      rw [if_pos ⟨c2, by simpa using d2, d3, c3, by rw [hdn]; simp⟩]
    · rw [PSeg.normal]; simp only [hcn, hdn]

/-- The normal vector of a part of a line. -/
theorem calcNormal_part (l : Line) (n k : ℕ) :
    calcNormal ⟨lerp l.b1 l.b2 (k / n), lerp l.b1 l.b2 ((k + 1) / n)⟩
      = ⟨-(l.b2.y - l.b1.y) / n, (l.b2.x - l.b1.x) / n⟩ := by
  unfold calcNormal lerp
  ext
  · dsimp only; ring
  · dsimp only; ring

theorem sideFromLine_some (l : Line) (shaded : Bool) (normal : Option Pt) (index : Option ℕ) (n : ℕ)
    (names : List String) : ∃ side : List PSeg, sideFromLine l shaded normal index n names = some side ∧
      List.Forall₂ (SegOf l shaded
        (normal.getD ⟨-(l.b2.y - l.b1.y) / n, (l.b2.x - l.b1.x) / n⟩) names n) side (List.range n) ∧
      (0 < n → side.head?.bind PSeg.normal
        = some (normal.getD ⟨-(l.b2.y - l.b1.y) / n, (l.b2.x - l.b1.x) / n⟩)) := by
  choose g h1 h2 h3 h4 _ using fun l => segFromLine_some l shaded normal index names
  refine ⟨(sideLines l n).map g, ?_, ?_, ?_⟩
  · unfold sideFromLine
    rw [mapM_some _ g _ fun a _ => h1 a, Option.bind_some, mkSide, if_pos]
    refine (collinearLoop_same (normal.getD ⟨-(l.b2.y - l.b1.y) / n, (l.b2.x - l.b1.x) / n⟩) _ ?_).2
    rw [sideLines_eq]
    simp only [List.map_map, List.mem_map, Function.comp]
    rintro x ⟨k, _, rfl⟩
    right
    rw [h4, calcNormal_part]
  · rw [sideLines_eq, List.map_map, List.forall₂_map_left_iff, List.forall₂_same]
    intro k _
    refine ⟨_, h2 _, h3 _, rfl, ?_, rfl, rfl⟩
    simp only [surfFromLine, calcNormal_part]
  · intro hn
    obtain ⟨m, rfl⟩ : ∃ m, n = m + 1 := ⟨n - 1, by omega⟩
    rw [sideLines_eq, List.range_succ_eq_map]
    simp only [List.map_cons, List.head?_cons, Option.bind_some]
    rw [h4, calcNormal_part]

/-- C60 (rows).  A PV row can be made from every line.  Each side is divided into equal parts in the
order of the line, one surface each.  The normal vectors of the front are all equal, they point to
the left of the direction of the line, and those of the back are their negatives. -/
theorem C60_row (l : Line) (shaded : Bool) (index : ℕ) (cut : CutSpec) (names : List String)
    (hF : 0 < cut.front.getD 1) :
    ∃ r : PRow, rowFromLine l shaded none index cut names = some r ∧ r.line = l ∧ r.index = index ∧
      List.Forall₂ (SegOf l shaded ⟨-(l.b2.y - l.b1.y) / (cut.front.getD 1 : ℕ),
        (l.b2.x - l.b1.x) / (cut.front.getD 1 : ℕ)⟩ names (cut.front.getD 1)) r.front
        (List.range (cut.front.getD 1)) ∧
      List.Forall₂ (SegOf l shaded ⟨(l.b2.y - l.b1.y) / (cut.front.getD 1 : ℕ),
        -(l.b2.x - l.b1.x) / (cut.front.getD 1 : ℕ)⟩ names (cut.back.getD 1)) r.back
        (List.range (cut.back.getD 1)) := by
  obtain ⟨f, hf, f1, f2⟩ := sideFromLine_some l shaded none (some 0) (cut.front.getD 1) names
  obtain ⟨b, hb, b1, -⟩ := sideFromLine_some l shaded
    (some ⟨-(-(l.b2.y - l.b1.y) / (cut.front.getD 1 : ℕ)),
      -((l.b2.x - l.b1.x) / (cut.front.getD 1 : ℕ))⟩) (some 0) (cut.back.getD 1) names
  refine ⟨⟨f, b, index, l⟩, ?_, rfl, rfl, f1, ?_⟩
  · unfold rowFromLine
    simp only [hf, Option.bind_some, f2 hF, Option.getD_none, hb]
  · convert b1 using 2
    simp only [Option.getD_some, Pt.mk.injEq]
    constructor <;> ring

/-- C60 (given normal vector).  With a normal vector given, it is the normal vector of all surfaces of
the front, and its negative is the normal vector of all surfaces of the back. -/
theorem C60_row_normal (l : Line) (shaded : Bool) (N : Pt) (index : ℕ) (cut : CutSpec)
    (names : List String) :
    ∃ r : PRow, rowFromLine l shaded (some N) index cut names = some r ∧ r.line = l ∧ r.index = index ∧
      List.Forall₂ (SegOf l shaded N names (cut.front.getD 1)) r.front
        (List.range (cut.front.getD 1)) ∧
      List.Forall₂ (SegOf l shaded ⟨-N.x, -N.y⟩ names (cut.back.getD 1)) r.back
        (List.range (cut.back.getD 1)) := by
  obtain ⟨f, hf, f1, -⟩ := sideFromLine_some l shaded (some N) (some 0) (cut.front.getD 1) names
  obtain ⟨b, hb, b1, -⟩ := sideFromLine_some l shaded (some ⟨-N.x, -N.y⟩) (some 0) (cut.back.getD 1) names
  refine ⟨⟨f, b, index, l⟩, ?_, rfl, rfl, f1, b1⟩
  unfold rowFromLine
  simp only [hf, Option.bind_some, hb]

/-- C60 (lengths).  Every segment of a side with `n` segments has the `n`-th part of the length of the
line, so that the side has the length of the line. -/
theorem C60_lengths {l : Line} {shaded : Bool} {N : Pt} {names : List String} {n : ℕ} (hn : 0 < n)
    {side : List PSeg} (h : List.Forall₂ (SegOf l shaded N names n) side (List.range n)) :
    side.length = n ∧ (∀ g ∈ side, ∀ b ∈ g.all, b.line.length = l.length / n) ∧
    ((side.flatMap PSeg.all).map fun b => b.line.length).sum = l.length := by
  have hpart : ∀ k : ℕ, (⟨lerp l.b1 l.b2 (k / n), lerp l.b1 l.b2 ((k + 1) / n)⟩ : Line).length
      = l.length / n := by
    intro k
    have hn' : (0 : ℝ) < n := by exact_mod_cast hn
    unfold Line.length lerp
    dsimp only
    rw [← Real.sqrt_sq hn'.le, ← Real.sqrt_div' _ (sq_nonneg _)]
    rw [Real.sqrt_sq hn'.le]
    congr 1
    field_simp
    ring
  have key : ∀ (ks : List ℕ) (sd : List PSeg), List.Forall₂ (SegOf l shaded N names n) sd ks →
      sd.length = ks.length ∧ (∀ g ∈ sd, ∀ b ∈ g.all, b.line.length = l.length / n) ∧
      ((sd.flatMap PSeg.all).map fun b => b.line.length).sum = ks.length * (l.length / n) := by
    intro ks sd h
    induction h with
    | nil => simp
    | @cons g k sd ks h _ ih =>
      obtain ⟨i1, i2, i3⟩ := ih
      obtain ⟨b, b1, b2, b3, -⟩ := h
      have hall : g.all = [b] := by
        rw [PSeg.all, b1, b2]; cases shaded <;> rfl
      have hb : b.line.length = l.length / n := by rw [b3]; exact hpart k
      refine ⟨by simp [i1], ?_, ?_⟩
      · intro g' hg'
        rcases List.mem_cons.1 hg' with rfl | hg'
        · rw [hall]; simpa using hb
        · exact i2 g' hg'
      · rw [List.flatMap_cons, hall, List.map_append, List.sum_append, i3]
        simp only [List.map_cons, List.map_nil, List.sum_cons, List.sum_nil, List.length_cons, hb]
        push_cast
        ring
  obtain ⟨k1, k2, k3⟩ := key _ _ h
  refine ⟨by simpa using k1, k2, ?_⟩
  rw [k3, List.length_range]
  have hn' : (n : ℝ) ≠ 0 := by exact_mod_cast hn.ne'
  field_simp

/-- C60 (centre, tilt and width).  The line made from centre, tilt angle and width is the line of the
row that the fitted array has in that place, whatever the angles are. -/
theorem C60_center (p : ArrayParams) (u : StepIn) (i : ℕ) :
    coordsFromCenterTiltLength ⟨i * (p.width / p.gcr), p.height⟩ u.surfaceTilt p.width
      u.surfaceAzimuth p.axisAzimuth = ((fitStep p u).row i).full := by
  change _ = fullRowCoords (rowCenter p i) p.width
    (rotationFromTiltAzimuth u.surfaceAzimuth p.axisAzimuth u.surfaceTilt).deg
  have : rowCenter p i = ⟨i * (p.width / p.gcr), p.height⟩ := by
    simp [rowCenter, X_ORIGIN, Y_GROUND, ArrayParams.distance]
  rw [this]
  rfl

/-- C60 (from the center).  A row made from its center, tilt, width and azimuths, as given for row `i` of
an array, runs along the line of row `i` of the time series, and both sides consist of the requested
numbers of equal parts of that line. -/
theorem C60_from_center (p : ArrayParams) (u : StepIn) (i : ℕ) (shaded : Bool) (names : List String)
    (cut : CutSpec) (hF : 0 < cut.front.getD 1) :
    ∃ r : PRow, rowFromCenter ⟨i * (p.width / p.gcr), p.height⟩ u.surfaceTilt p.width u.surfaceAzimuth
        p.axisAzimuth shaded none i cut names = some r ∧
      r.line = ((fitStep p u).row i).full ∧ r.index = i ∧
      (∃ N, List.Forall₂ (SegOf ((fitStep p u).row i).full shaded N names (cut.front.getD 1)) r.front
        (List.range (cut.front.getD 1))) ∧
      ∃ N, List.Forall₂ (SegOf ((fitStep p u).row i).full shaded N names (cut.back.getD 1)) r.back
        (List.range (cut.back.getD 1)) := by
  obtain ⟨r, h1, h2, h3, h4, h5⟩ := C60_row ((fitStep p u).row i).full shaded i cut names hF
  refine ⟨r, ?_, h2, h3, ⟨_, h4⟩, _, h5⟩
  rw [rowFromCenter, C60_center p u i]
  exact h1

theorem lerp_rowline (p : ArrayParams) (u : StepIn) (i : ℕ) (s : ℝ) :
    lerp ((fitStep p u).row i).full.b1 ((fitStep p u).row i).full.b2 s
      = rowPt (rowCenter p i) (fitStep p u).rot.deg (-(p.width / 2) + s * p.width) := by
  have e : ((fitStep p u).row i).full = ⟨rowPt (rowCenter p i) (fitStep p u).rot.deg (-(p.width / 2)),
      rowPt (rowCenter p i) (fitStep p u).rot.deg (p.width / 2)⟩ := fullRowCoords_eq _ _ _
  rw [e]
  unfold lerp rowPt
  ext <;> dsimp only <;> ring

/-- C60 (same segments).  Part `k` of the line of a row covers the same points as the illuminated and
the shaded surface of segment `k` of the time series row together. -/
theorem C60_same_segments {p : ArrayParams} {u : StepIn} (hp : PhysicalArray p) (hu : PhysicalStep p u)
    {i : ℕ} {s : RowSide} {k : ℕ} (hk : k < p.nSeg i s) (P : Pt) :
    OnSeg P ⟨lerp ((fitStep p u).row i).full.b1 ((fitStep p u).row i).full.b2 (k / p.nSeg i s),
        lerp ((fitStep p u).row i).full.b1 ((fitStep p u).row i).full.b2 ((k + 1) / p.nSeg i s)⟩ ↔
      OnSeg P ((fitStep p u).coords (.pv i s k false)) ∨
      OnSeg P ((fitStep p u).coords (.pv i s k true)) := by
  have h := physical_of hp hu
  have hn : (p.nSeg i s : ℝ) ≠ 0 := by
    have : 0 < p.nSeg i s := by omega
    exact_mod_cast this.ne'
  have e : fitStep p u = fitGeom p (fitStep p u).rot (fitStep p u).sun := rfl
  set w := p.width
  set n := p.nSeg i s
  have h1 := onSeg_pv (sun := (fitStep p u).sun) (rot := (fitStep p u).rot) h true (sh := false) hk P
  have h2 := onSeg_pv (sun := (fitStep p u).sun) (rot := (fitStep p u).rot) h true (sh := true) hk P
  rw [← e] at h1 h2
  rw [h1, h2]
  have hle := tSeg_le hp.width_pos.le (fitStep p u).rot.deg n k
  have hL : OnSeg P ⟨lerp ((fitStep p u).row i).full.b1 ((fitStep p u).row i).full.b2 (k / n),
        lerp ((fitStep p u).row i).full.b1 ((fitStep p u).row i).full.b2 ((k + 1) / n)⟩ ↔
      rowSeg p true (fitStep p u).rot.deg i (tSeg w (fitStep p u).rot.deg n k).1
        (tSeg w (fitStep p u).rot.deg n k).2 (mirB true P) := by
    rw [← ray_onSeg_tPt p true _ i hle, lerp_rowline, lerp_rowline]
    by_cases hr : 0 < (fitStep p u).rot.deg
    · simp only [tPt, tSeg, hr, if_true]
      rw [show (k : ℝ) / n * w = k * (w / n) by ring, show ((k : ℝ) + 1) / n * w = (k + 1) * (w / n) by ring]
    · simp only [tPt, tSeg, hr, if_false]
      rw [onSeg_flip, show (k : ℝ) / n * w = k * (w / n) by ring,
        show ((k : ℝ) + 1) / n * w = (k + 1) * (w / n) by ring,
        show w / 2 - (w - ((k : ℝ) + 1) * (w / n)) = -(w / 2) + (k + 1) * (w / n) by ring,
        show w / 2 - (w - (k : ℝ) * (w / n)) = -(w / 2) + k * (w / n) by ring]
  rw [hL]
  have hiv : ∀ sh, pvIv p (fitStep p u).rot (fitStep p u).sun i s k sh
      = tIv w (fitStep p u).rot.deg n
        (sideShade p (arctan2 (fitStep p u).sun.y (fitStep p u).sun.x) (fitStep p u).rot.deg i s) k sh :=
    fun _ => rfl
  rw [hiv, hiv]
  generalize sideShade p (arctan2 (fitStep p u).sun.y (fitStep p u).sun.x) (fitStep p u).rot.deg i s = L
  unfold rowSeg tIv
  dsimp only
  generalize (tSeg w (fitStep p u).rot.deg n k).1 = lo at *
  generalize (tSeg w (fitStep p u).rot.deg n k).2 = hi at *
  constructor
  · rintro ⟨t, t0, t1, ht⟩
    by_cases hr : (fitStep p u).rot.deg = 0
    · left; simp only [hr, if_true, Bool.false_eq_true, if_false]
      rw [hr] at ht
      exact ⟨t, t0, t1, ht⟩
    · simp only [hr, if_false, if_true, Bool.false_eq_true]
      rcases le_total (max lo (min hi L)) t with q | q
      · exact Or.inl ⟨t, q, t1, ht⟩
      · exact Or.inr ⟨t, t0, q, ht⟩
  · have hm1 : lo ≤ max lo (min hi L) := le_max_left _ _
    have hm2 : max lo (min hi L) ≤ hi := max_le hle (min_le_left _ _)
    by_cases hr : (fitStep p u).rot.deg = 0
    · simp only [hr, if_true, Bool.false_eq_true, if_false]
      rintro (⟨t, t0, t1, ht⟩ | ⟨t, t0, t1, ht⟩)
      · exact ⟨t, t0, t1, ht⟩
      · exact ⟨t, by linarith, t1, ht⟩
    · simp only [hr, if_false, if_true, Bool.false_eq_true]
      rintro (⟨t, t0, t1, ht⟩ | ⟨t, t0, t1, ht⟩)
      · exact ⟨t, by linarith, t1, ht⟩
      · exact ⟨t, t0, by linarith, ht⟩

/-- C60 (orientation).  The normal vectors of a row made from the line of a fitted row (front cut into
`n` segments) point out of its front and out of its back. -/
theorem C60_outward (p : ArrayParams) (u : StepIn) (i : ℕ) (n k : ℕ) (sh : Bool) :
    let l := ((fitStep p u).row i).full
    let out := fun s => outward (fitStep p u).rot.deg (.pv i s k sh)
    (⟨-(l.b2.y - l.b1.y) / n, (l.b2.x - l.b1.x) / n⟩ : Pt)
      = ⟨p.width / n * (out .front).x, p.width / n * (out .front).y⟩ ∧
    (⟨(l.b2.y - l.b1.y) / n, -(l.b2.x - l.b1.x) / n⟩ : Pt)
      = ⟨p.width / n * (out .back).x, p.width / n * (out .back).y⟩ := by
  intro l out
  have h1 := sideNormal_outward p u i .front k sh
  have h2 := sideNormal_outward p u i .back k sh
  simp only [sideNormal, Pt.mk.injEq] at h1 h2
  simp only [Pt.mk.injEq]
  refine ⟨⟨?_, ?_⟩, ?_, ?_⟩
  · rw [h1.1]; ring
  · rw [h1.2]; ring
  · rw [h2.1]; ring
  · rw [h2.2]; ring

/-! ## A concrete case -/

/-- A row of width 5 with three segments on the front and two on the back. -/
theorem C60_demo : ∃ r : PRow, rowFromLine ⟨⟨0, 0⟩, ⟨4, 3⟩⟩ false none 7 ⟨some 3, some 2⟩ ["qinc"] = some r ∧
    r.front.length = 3 ∧ (∀ g ∈ r.front, ∀ b ∈ g.all, b.line.length = 5 / 3) ∧
    r.back.length = 2 ∧ (∀ g ∈ r.back, ∀ b ∈ g.all, b.line.length = 5 / 2) := by
  have hl : (⟨⟨0, 0⟩, ⟨4, 3⟩⟩ : Line).length = 5 := by
    unfold Line.length
    rw [show ((3 : ℝ) - 0) ^ 2 + (4 - 0) ^ 2 = 5 ^ 2 by norm_num, Real.sqrt_sq (by norm_num)]
  obtain ⟨r, h1, -, -, h2, h3⟩ := C60_row ⟨⟨0, 0⟩, ⟨4, 3⟩⟩ false 7 ⟨some 3, some 2⟩ ["qinc"] (by norm_num)
  obtain ⟨a1, a2, -⟩ := C60_lengths (by norm_num) h2
  obtain ⟨b1, b2, -⟩ := C60_lengths (by norm_num) h3
  rw [hl] at a2 b2
  exact ⟨r, h1, a1, a2, b1, b2⟩

end
end PVF

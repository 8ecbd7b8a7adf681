import Verif.Model.Weighted
import Verif.Spec.Average
import Verif.Props.Energy
import Verif.Props.ViewFactors
import Verif.Props.FastDemo
import Mathlib.Data.List.GetD
import Mathlib.Tactic.FieldSimp
import Mathlib.Tactic.LinearCombination

/-!
# C37: weighted parameters are averages
-/

namespace PVF

variable {α : Type*}

theorem foldl_add_sum (f : α → ℝ) (l : List α) (x : ℝ) :
    l.foldl (fun v a => v + f a) x = x + (l.map f).sum := by
  induction l generalizing x with
  | nil => simp
  | cons a l ih => rw [List.foldl_cons, ih, List.map_cons, List.sum_cons, add_assoc]

theorem collLength_sum (len : α → ℝ) (l : List α) : collLength len l = (l.map len).sum := by
  rw [collLength, foldl_add_sum, zero_add]

theorem collWW_sum (len val : α → ℝ) (l : List α) :
    collWW len val l = (l.map fun a => len a * val a).sum := by
  rw [collWW, foldl_add_sum, zero_add]

theorem segLength_sum (len : α → ℝ) (s : SegColl α) : segLength len s = (s.all.map len).sum := by
  simp [segLength, SegColl.all, collLength_sum]

theorem segWW_sum (len val : α → ℝ) (s : SegColl α) :
    segWW len val s = (s.all.map fun a => len a * val a).sum := by
  simp [segWW, SegColl.all, collWW_sum]

theorem sum_flatMap_map {β : Type*} (f : β → ℝ) (g : α → List β) (l : List α) :
    ((l.flatMap g).map f).sum = (l.map fun a => ((g a).map f).sum).sum := by
  induction l with
  | nil => simp
  | cons a l ih => simp [ih]

theorem sideCollLength_sum (len : α → ℝ) (l : List (SegColl α)) :
    sideCollLength len l = ((l.flatMap SegColl.all).map len).sum := by
  rw [sideCollLength, foldl_add_sum, zero_add, sum_flatMap_map]
  congr 1
  exact List.map_congr_left fun s _ => segLength_sum len s

theorem sideWW_sum (len val : α → ℝ) (l : List (SegColl α)) :
    sideWW len val l = ((l.flatMap SegColl.all).map fun a => len a * val a).sum := by
  rw [sideWW, foldl_add_sum, zero_add, sum_flatMap_map]
  congr 1
  exact List.map_congr_left fun s _ => segWW_sum len val s

/-- An average with nonnegative weights, not all zero, lies between bounds on the values of all
surfaces of positive weight. -/
theorem IsAverage.bounds {w val : α → ℝ} {l : List α} {m lo hi : ℝ} (h : IsAverage w val l m)
    (hw : ∀ a ∈ l, 0 ≤ w a) (hpos : 0 < (l.map w).sum)
    (hv : ∀ a ∈ l, 0 < w a → lo ≤ val a ∧ val a ≤ hi) : lo ≤ m ∧ m ≤ hi := by
  have key : ∀ l : List α, (∀ a ∈ l, 0 ≤ w a) → (∀ a ∈ l, 0 < w a → lo ≤ val a ∧ val a ≤ hi) →
      (l.map w).sum * lo ≤ (l.map fun a => w a * val a).sum ∧
      (l.map fun a => w a * val a).sum ≤ (l.map w).sum * hi := by
    intro l
    induction l with
    | nil => simp
    | cons a l ih =>
      intro hw hv
      obtain ⟨i1, i2⟩ := ih (fun b hb => hw b (List.mem_cons_of_mem _ hb))
        (fun b hb => hv b (List.mem_cons_of_mem _ hb))
      simp only [List.map_cons, List.sum_cons, add_mul]
      rcases (hw a List.mem_cons_self).lt_or_eq with h | h
      · obtain ⟨v1, v2⟩ := hv a List.mem_cons_self h
        exact ⟨add_le_add (mul_le_mul_of_nonneg_left v1 h.le) i1,
          add_le_add (mul_le_mul_of_nonneg_left v2 h.le) i2⟩
      · rw [← h]; simp only [zero_mul, zero_add]; exact ⟨i1, i2⟩
  obtain ⟨k1, k2⟩ := key l hw hv
  rw [← h] at k1 k2
  exact ⟨le_of_mul_le_mul_left k1 hpos, le_of_mul_le_mul_left k2 hpos⟩

/-- C37: the weighted parameter of a shade collection with any number of surfaces is the
length-weighted average of the surface values. -/
theorem C37_collection (len val : α → ℝ) (coll : List α) (h : (coll.map len).sum ≠ 0) :
    IsAverage len val coll (collWeighted len val coll) := by
  rw [IsAverage, collWeighted, collWW_sum, collLength_sum, mul_div_cancel₀ _ h]

/-- C37: the same for a segment with any illuminated and shaded surfaces. -/
theorem C37_segment (len val : α → ℝ) (s : SegColl α)
    (h : ((s.illum ++ s.shaded).map len).sum ≠ 0) :
    IsAverage len val (s.illum ++ s.shaded) (segWeighted len val s) := by
  change (s.all.map len).sum ≠ 0 at h
  change IsAverage len val s.all _
  rw [IsAverage, segWeighted, segWW_sum, segLength_sum, mul_div_cancel₀ _ h]

/-- C37: the same for a side with any number of segments. -/
theorem C37_side (len val : α → ℝ) (segs : List (SegColl α))
    (h : ((segs.flatMap fun s => s.illum ++ s.shaded).map len).sum ≠ 0) :
    IsAverage len val (segs.flatMap fun s => s.illum ++ s.shaded) (sideWeighted len val segs) := by
  change ((segs.flatMap SegColl.all).map len).sum ≠ 0 at h
  change IsAverage len val (segs.flatMap SegColl.all) _
  rw [IsAverage, sideWeighted, sideWW_sum, sideCollLength_sum, mul_div_cancel₀ _ h]

/-- C37: the weighted parameter of a side is the average of the weighted parameters of its
segments, weighted with the lengths of the segments. -/
theorem C37_side_segments (len val : α → ℝ) (segs : List (SegColl α))
    (hs : ∀ s ∈ segs, ((s.illum ++ s.shaded).map len).sum ≠ 0)
    (h : ((segs.flatMap fun s => s.illum ++ s.shaded).map len).sum ≠ 0) :
    IsAverage (fun s => ((s.illum ++ s.shaded).map len).sum) (segWeighted len val) segs
      (sideWeighted len val segs) := by
  have := C37_side len val segs h
  rw [IsAverage, sum_flatMap_map, sum_flatMap_map] at this
  rw [IsAverage, this]
  congr 1
  apply List.map_congr_left
  intro s hm
  exact (C37_segment len val s (hs s hm)).symm

/-- C37: the weighted parameter of a side of a row of a physical array is the average over its
surfaces; value times width of the row is the sum over its surfaces; and it lies between bounds on
the values of the surfaces of the side that are not points. -/
theorem C37_row_side (p : ArrayParams) (u : StepIn) (i : ℕ) (s : RowSide) (val : SurfRef → ℝ)
    (hp : PhysicalArray p) (hu : PhysicalStep p u) (hseg : 0 < p.nSeg i s) :
    let m := sideWeighted (fun a => ((fitStep p u).coords a).length) val (sideColl p i s)
    p.width * m = ((sideRefs p i s).map fun a => lengthAt p u a * val a).sum ∧
    (∀ lo hi, (∀ a ∈ sideRefs p i s, 0 < lengthAt p u a → lo ≤ val a ∧ val a ≤ hi) →
      lo ≤ m ∧ m ≤ hi) := by
  intro m
  have hrefs : sideRefs p i s = (sideColl p i s).flatMap fun s => s.illum ++ s.shaded := by
    simp [sideRefs, sideColl, List.flatMap_map]
  have h := physical_of hp hu
  have hlen : ((sideRefs p i s).map (lengthAt p u)).sum = p.width := by
    rw [sideRefs, sum_flatMap_map]
    have : ∀ L, ∀ k ∈ List.range (p.nSeg i s), (sideSegment (rowCenter p i) p.width
        (fitStep p u).rot.deg (p.nSeg i s) L k).length = p.width / (p.nSeg i s) := fun L k _ =>
      sideSegment_length _ _ _ _ hp.width_pos.le h.lo h.hi
    have e : ∀ k ∈ List.range (p.nSeg i s),
        (([SurfRef.pv i s k false, SurfRef.pv i s k true]).map (lengthAt p u)).sum
          = p.width / (p.nSeg i s) := by
      intro k hk
      have hk' := List.mem_range.1 hk
      cases s
      · have hs : ((fitStep p u).row i).front[k]? = some (sideSegment (rowCenter p i) p.width
            (fitStep p u).rot.deg (p.nSeg i .front) _ k) := sideSegments_getElem _ _ _ _ _ _ hk'
        have e := this (rowShadedLengths p (fitStep p u).alpha (fitStep p u).rot.deg i).1 k hk
        rw [SegGeom.length] at e
        simp only [List.map_cons, List.map_nil, List.sum_cons, List.sum_nil, lengthAt,
          StepGeom.coords, StepGeom.side, List.getD_eq_getElem?_getD, hs, Option.getD_some,
          if_true, Bool.false_eq_true, if_false, add_zero]
        exact e
      · have hs : ((fitStep p u).row i).back[k]? = some (sideSegment (rowCenter p i) p.width
            (fitStep p u).rot.deg (p.nSeg i .back) _ k) := sideSegments_getElem _ _ _ _ _ _ hk'
        have e := this (rowShadedLengths p (fitStep p u).alpha (fitStep p u).rot.deg i).2 k hk
        rw [SegGeom.length] at e
        simp only [List.map_cons, List.map_nil, List.sum_cons, List.sum_nil, lengthAt,
          StepGeom.coords, StepGeom.side, List.getD_eq_getElem?_getD, hs, Option.getD_some,
          if_true, Bool.false_eq_true, if_false, add_zero]
        exact e
    rw [List.map_congr_left e]
    have hn : (p.nSeg i s : ℝ) ≠ 0 := by positivity
    simp
    field_simp
  have hav : IsAverage (lengthAt p u) val (sideRefs p i s) m := by
    rw [hrefs]
    refine C37_side _ val _ ?_
    rw [← hrefs]
    exact (hlen.trans_gt hp.width_pos).ne'
  refine ⟨?_, fun lo hi hv => hav.bounds (fun a _ => Line.length_nonneg _)
    (hlen.trans_gt hp.width_pos) hv⟩
  rw [← hlen]; exact hav

theorem elemWW_sum (p : ArrayParams) (len val : SurfRef → ℝ) (sh : Bool) (e : ℕ) :
    elemWW p len val sh e
      = ((List.range (p.nRows + 1)).map fun z => len (.gnd sh e z) * val (.gnd sh e z)).sum := by
  rw [elemWW, foldl_add_sum (fun z => len (.gnd sh e z) * val (.gnd sh e z)), zero_add]

theorem groundWW_sum (p : ArrayParams) (len val : SurfRef → ℝ) :
    groundWW p len val = ((groundRefs p).map fun a => len a * val a).sum := by
  rw [groundWW, foldl_add_sum, foldl_add_sum, zero_add, groundRefs, List.map_append,
    List.sum_append, sum_flatMap_map, sum_flatMap_map]
  rw [List.map_congr_left fun e _ => elemWW_sum p len val true e,
    List.map_congr_left fun e _ => elemWW_sum p len val false e]
  simp only [List.map_map]
  rfl

/-- C37: the weighted parameter of a ground element of positive length is the average over its
surfaces (the code divides by the length of the element, not by the sum of the lengths of its
surfaces), and lies between bounds on the values of the surfaces that are not points. -/
theorem C37_ground_element (p : ArrayParams) (u : StepIn) (val : SurfRef → ℝ) (sh : Bool) (e : ℕ)
    (hp : PhysicalArray p) (hu : PhysicalStep p u) (he : e < if sh then p.nRows else p.nRows + 1)
    (hlen : 0 < ((List.range (p.nRows + 1)).map fun z => lengthAt p u (.gnd sh e z)).sum) :
    let m := elemWeighted p (fitStep p u) val sh e
    IsAverage (fun z => lengthAt p u (.gnd sh e z)) (fun z => val (.gnd sh e z))
      (List.range (p.nRows + 1)) m ∧
    (∀ lo hi, (∀ z < p.nRows + 1, 0 < lengthAt p u (.gnd sh e z) →
      lo ≤ val (.gnd sh e z) ∧ val (.gnd sh e z) ≤ hi) → lo ≤ m ∧ m ≤ hi) := by
  intro m
  have hin := (fitStep p u).elem_inGround sh e
  have hle : ((fitStep p u).elem sh e).b1.x ≤ ((fitStep p u).elem sh e).b2.x := by
    have hk : 2 * e + (if sh then 1 else 0) < 2 * (fitStep p u).ground.nRows + 1 := by
      have : (fitStep p u).ground.nRows = p.nRows := rfl
      cases sh <;> simp_all <;> omega
    have hel : (fitStep p u).elem sh e
        = (fitStep p u).ground.el (2 * e + (if sh then 1 else 0)) := by
      cases sh
      · simp [StepGeom.elem, GroundIn.el]
      · simp only [StepGeom.elem, GroundIn.el, if_true, Nat.mul_add_mod, Nat.one_mod_eq_one.2,
          one_ne_zero, if_false]
        rw [if_neg (by omega), show (2 * e + 1) / 2 = e by omega]
    rw [hel, GroundIn.el_eq _ hk]
    exact GroundIn.brk_mono (ordered_of hp hu) hk
  have hs : ((List.range (p.nRows + 1)).map fun z => lengthAt p u (.gnd sh e z)).sum
      = ((fitStep p u).elem sh e).length := by
    rw [← (C19_cut _ (fitStep p u).ground.cuts hin.1.1 hle hin.2.1.2 hin.2.2.1 hin.2.2.2).2.1]
    congr 1
    have hc : (fitStep p u).ground.cuts.length = p.nRows := fit_cuts_length p _ _
    apply List.ext_getElem
    · simp [cutSurfaces_length, hc]
    · intro z h1 h2
      simp only [List.length_map, List.length_range] at h1
      simp only [List.getElem_map, List.getElem_range, lengthAt, coords_gnd_getD]
      rw [List.getD_eq_getElem]
  have hav : IsAverage (fun z => lengthAt p u (.gnd sh e z)) (fun z => val (.gnd sh e z))
      (List.range (p.nRows + 1)) m := by
    have hne : ((fitStep p u).elem sh e).length ≠ 0 := by rw [← hs]; exact hlen.ne'
    rw [IsAverage, hs]
    change _ * (elemWW p _ val sh e / ((fitStep p u).elem sh e).length) = _
    rw [mul_div_cancel₀ _ hne, elemWW_sum]
    rfl
  exact ⟨hav, fun lo hi hv => hav.bounds (fun a _ => Line.length_nonneg _) hlen
    fun z hz => hv z (List.mem_range.1 hz)⟩

/-- C37: the weighted parameter of the ground of a physical array is the average over all ground
surfaces, and lies between bounds on the values of the surfaces that are not points. -/
theorem C37_ground (p : ArrayParams) (u : StepIn) (val : SurfRef → ℝ)
    (hp : PhysicalArray p) (hu : PhysicalStep p u) :
    let m := groundWeighted p (fitStep p u) val
    200 * m = ((groundRefs p).map fun a => lengthAt p u a * val a).sum ∧
    (∀ lo hi, (∀ a ∈ groundRefs p, 0 < lengthAt p u a → lo ≤ val a ∧ val a ≤ hi) →
      lo ≤ m ∧ m ≤ hi) := by
  intro m
  obtain ⟨h1, h2, -⟩ := C17_tiling p u hp.width_pos hp.gcr_pos hu.sun_y hu.sun_front hu.shade_ok
  have hm : 200 * m = ((groundRefs p).map fun a => lengthAt p u a * val a).sum := by
    change 200 * (groundWW p _ val / (fitStep p u).ground.length) = _
    rw [h2, mul_div_cancel₀ _ (by norm_num), groundWW_sum]
    rfl
  have hav : IsAverage (lengthAt p u) val (groundRefs p) m := by
    rw [IsAverage, ← hm]
    congr 1
  refine ⟨hm, fun lo hi hv => hav.bounds (fun a _ => Line.length_nonneg _) ?_ hv⟩
  have : ((groundRefs p).map (lengthAt p u)).sum = 200 := h1
  rw [this]; norm_num

/-- Instance of C37: a side with two segments, one of them partly shaded. -/
theorem C37_demo : sideWeighted (fun n : ℕ => (n : ℝ)) (fun n => 100 * n)
    [⟨[1], [3]⟩, ⟨[4], [0]⟩] = 325 := by
  norm_num [sideWeighted, sideWW, sideCollLength, segWW, segLength, collWW, collLength]

/-- The hypotheses of the theorems about arrays are met: on a side with two segments the weighted
parameter is below 7 if all surfaces of the side have a value below 7. -/
theorem C37_demo_array (val : SurfRef → ℝ) (h : ∀ a ∈ sideRefs vertArray 0 .back, val a ≤ 7 ∧ 3 ≤ val a) :
    sideWeighted (fun a => ((fitStep vertArray vertStep).coords a).length) val
      (sideColl vertArray 0 .back) ≤ 7 :=
  ((C37_row_side vertArray vertStep 0 .back val vert_physicalArray vert_physicalStep
    (by simp [vertArray, ArrayParams.nSeg, ArrayParams.nBack])).2 3 7
    fun a ha _ => ⟨(h a ha).2, (h a ha).1⟩).2

end PVF

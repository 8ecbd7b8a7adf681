import Verif.Props.RoundedWeighted

/-!
# Averages over the ground with rounding

The length of the ground and the weighted values of the ground and its elements when lengths, values and
averages are computed with rounding errors.  The code divides by the sum of the lengths of the elements, and
not by the sum of the lengths of the surfaces that it weights with.
-/

namespace PVF

theorem abs_sum_near {α : Type*} (l : List α) (f' f : α → ℝ) {c : ℝ} (h : ∀ a ∈ l, |f' a - f a| ≤ c) :
    |(l.map f').sum - (l.map f).sum| ≤ l.length * c := by
  induction l with
  | nil => simp
  | cons a l ih =>
    simp only [List.map_cons, List.sum_cons, List.length_cons]
    push_cast
    have i := ih fun b hb => h b (List.mem_cons_of_mem _ hb)
    have j := h a List.mem_cons_self
    rw [show f' a + (l.map f').sum - (f a + (l.map f).sum)
      = (f' a - f a) + ((l.map f').sum - (l.map f).sum) by ring]
    have := abs_add_le (f' a - f a) ((l.map f').sum - (l.map f).sum)
    linarith

/-- The pieces of an element make up the element. -/
theorem elem_signed (g : StepGeom) {n : ℕ} (hc : g.ground.cuts.length = n) (sh : Bool) (e : ℕ) :
    ((List.range (n + 1)).map fun z => (g.coords (.gnd sh e z)).b2.x - (g.coords (.gnd sh e z)).b1.x).sum
      = (g.elem sh e).b2.x - (g.elem sh e).b1.x := by
  rw [← cutSurfaces_telescope (fun x => x) (g.elem_inGround sh e) g.ground.cuts]
  congr 1
  apply List.ext_getElem
  · simp [cutSurfaces_length, hc]
  · intro z h1 h2
    simp only [List.length_map, List.length_range] at h1
    simp only [List.getElem_map, List.getElem_range, coords_gnd_getD]
    rw [List.getD_eq_getElem]

/-- The lengths of the pieces of an element add up to its length. -/
theorem elem_pieces_length (p : ArrayParams) (u : StepIn) (hp : PhysicalArray p) (hst : PhysicalStep p u)
    {sh : Bool} {e : ℕ} (he : e < if sh then p.nRows else p.nRows + 1) :
    ((List.range (p.nRows + 1)).map fun z => lengthAt p u (.gnd sh e z)).sum
      = ((fitStep p u).elem sh e).length := by
  have hin := (fitStep p u).elem_inGround sh e
  have hle : ((fitStep p u).elem sh e).b1.x ≤ ((fitStep p u).elem sh e).b2.x :=
    elem_ordered (ordered_of hp hst) he
  rw [← (C19_cut _ (fitStep p u).ground.cuts hin.1.1 hle hin.2.1.2 hin.2.2.1 hin.2.2.2).2.1]
  congr 1
  have hc : (fitStep p u).ground.cuts.length = p.nRows := fit_cuts_length p _ _
  apply List.ext_getElem
  · simp [cutSurfaces_length, hc]
  · intro z h1 h2
    simp only [List.length_map, List.length_range] at h1
    simp only [List.getElem_map, List.getElem_range, lengthAt, coords_gnd_getD]
    rw [List.getD_eq_getElem]

/-- The length of an element of the ground with errors. -/
theorem CoordsNear.elem_length {p : ArrayParams} {g g' : StepGeom} {τ : ℝ} (hn : CoordsNear p g g' τ)
    (hc : g.ground.cuts.length = p.nRows) (hc' : g'.ground.cuts.length = p.nRows) {sh : Bool} {e : ℕ}
    (he : e < if sh then p.nRows else p.nRows + 1) :
    |(g'.elem sh e).length - (g.elem sh e).length| ≤ (p.nRows + 1) * (2 * τ) := by
  have i' := g'.elem_inGround sh e
  have i := g.elem_inGround sh e
  rw [Line.length_ground (i'.2.2.1.trans i'.2.2.2.symm), Line.length_ground (i.2.2.1.trans i.2.2.2.symm),
    ← elem_signed g' hc', ← elem_signed g hc]
  refine (abs_abs_sub_abs_le _ _).trans ((abs_sum_near _ _ _ (c := 2 * τ) fun z hz => ?_).trans ?_)
  · obtain ⟨e1, e2⟩ := hn.ends (.gnd sh e z)
      (mem_surfaces.2 (mem_allRefs_gnd.2 ⟨he, List.mem_range.1 hz⟩))
    have e1 := distPt_x e1
    have e2 := distPt_x e2
    rw [abs_le] at *
    constructor <;> linarith
  · rw [List.length_range]
    push_cast
    exact le_rfl

theorem groundRefs_length (p : ArrayParams) : (groundRefs p).length = (2 * p.nRows + 1) * (p.nRows + 1) := by
  simp [groundRefs]
  ring

/-- The length of the ground with errors. -/
theorem CoordsNear.ground_length {p : ArrayParams} {g g' : StepGeom} {τ : ℝ} (hn : CoordsNear p g g' τ)
    (hc : g.ground.cuts.length = p.nRows) (hc' : g'.ground.cuts.length = p.nRows)
    (hr : g.ground.nRows = p.nRows) (hr' : g'.ground.nRows = p.nRows) :
    |g'.ground.length - g.ground.length| ≤ ((2 * p.nRows + 1) * (p.nRows + 1) : ℕ) * (2 * τ) ∧
    |g'.ground.shadedLength - g.ground.shadedLength| ≤ (p.nRows * (p.nRows + 1) : ℕ) * (2 * τ) := by
  have s := abs_sum_near (List.range p.nRows) (fun e => (g'.ground.shadowEl e).length)
    (fun e => (g.ground.shadowEl e).length) fun e he =>
      hn.elem_length hc hc' (sh := true) (by simpa using he)
  have i := abs_sum_near (List.range (p.nRows + 1)) (fun e => (g'.ground.illumEl e).length)
    (fun e => (g.ground.illumEl e).length) fun e he =>
      hn.elem_length hc hc' (sh := false) (by simpa using he)
  rw [GroundIn.length, GroundIn.length, GroundIn.shadedLength, GroundIn.shadedLength, hr, hr']
  rw [List.length_range] at s i
  push_cast at *
  rw [abs_le] at s i
  constructor <;> rw [abs_le] <;> constructor <;> linarith

/-- A weighted sum that is divided by another total length. -/
theorem quotient_near {α : Type*} (l : List α) (w' w v' v : α → ℝ) {σ V e L L' : ℝ} {m : ℕ}
    (hw' : ∀ a ∈ l, 0 ≤ w' a) (hw : ∀ a ∈ l, 0 ≤ w a) (hσ : ∀ a ∈ l, |w' a - w a| ≤ σ)
    (he : ∀ a ∈ l, |v' a - v a| ≤ e) (hV : ∀ a ∈ l, |v a| ≤ V) (V0 : 0 ≤ V) (e0 : 0 ≤ e)
    (hm : l.length = m)
    (hL : (l.map w).sum = L) (hL' : |L' - L| ≤ m * σ) (hmL : m * σ < L) :
    0 < L' ∧
    |(l.map fun a => w' a * v' a).sum / L' - (l.map fun a => w a * v a).sum / L|
      ≤ e + 2 * m * σ * (2 * V + e) / (L - m * σ) ∧
    (l.map fun a => w' a * |v' a|).sum / L' ≤ (V + e) * ((L + m * σ) / (L - m * σ)) := by
  subst hm hL
  obtain ⟨p', b, t⟩ := average_near l w' w v' v hw' hw hσ he hV V0 hmL
  have hW := abs_sum_near l w' w hσ
  have hN : |(l.map fun a => w' a * v' a).sum| ≤ (l.map fun a => w' a * |v' a|).sum := by
    clear t b p' hW hL' hmL hV he hσ hw
    induction l with
    | nil => simp
    | cons a l ih =>
      simp only [List.map_cons, List.sum_cons]
      have i := ih fun b hb => hw' b (List.mem_cons_of_mem _ hb)
      have := abs_add_le (w' a * v' a) (l.map fun a => w' a * v' a).sum
      rw [abs_mul, abs_of_nonneg (hw' a List.mem_cons_self)] at this
      linarith
  set N' := (l.map fun a => w' a * v' a).sum
  set W' := (l.map w').sum
  set L := (l.map w).sum
  set S := (l.length : ℝ) * σ with hSd
  have hS : 0 ≤ S := (abs_nonneg _).trans hW
  have hd : 0 < L - S := by linarith
  have hge : L - S ≤ L' := by linarith [(abs_le.1 hL').1]
  have hp : 0 < L' := by linarith
  have hup : W' ≤ L + S := by linarith [(abs_le.1 hW).2]
  refine ⟨hp, ?_, ?_⟩
  · have e1 : N' / L' - N' / W' = N' / W' * ((W' - L') / L') := by
      field_simp
    have b1 : |N' / W'| ≤ V + e := by
      rw [abs_div, abs_of_pos p', div_le_iff₀ p']
      exact hN.trans t
    have b2 : |(W' - L') / L'| ≤ 2 * S / (L - S) := by
      rw [abs_div, abs_of_pos hp]
      refine div_le_div₀ (by linarith) ?_ hd hge
      rw [abs_le] at *
      constructor <;> linarith
    have b3 : |N' / L' - N' / W'| ≤ (V + e) * (2 * S / (L - S)) := by
      rw [e1, abs_mul]
      exact mul_le_mul b1 b2 (abs_nonneg _) (by linarith)
    refine (abs_sub_le _ (N' / W') _).trans ((add_le_add b3 b).trans (le_of_eq ?_))
    rw [hSd]
    ring
  · refine (div_le_div_of_nonneg_right t hp.le).trans ?_
    rw [mul_div_assoc]
    exact mul_le_mul_of_nonneg_left (div_le_div₀ (by linarith) hup hd hge) (by linarith)

namespace Arith
variable {ε : ℝ} (h0 : 0 ≤ ε) (h1 : ε < 1) (A : Arith ε)
include h0 h1

theorem elemWW_near (p : ArrayParams) (l' : SurfRef → Line) (val : SurfRef → ℝ) (sh : Bool) (e : ℕ) :
    Near ε (5 + p.nRows) (A.elemWW p (fun a => A.length (l' a)) val sh e)
      (PVF.elemWW p (fun a => (l' a).length) val sh e)
      (PVF.elemWW p (fun a => (l' a).length) (fun a => |val a|) sh e) := by
  have one : ∀ z ∈ List.range (p.nRows + 1), Near ε 4
      (A.mul (A.length (l' (.gnd sh e z))) (val (.gnd sh e z)))
      ((l' (.gnd sh e z)).length * val (.gnd sh e z)) ((l' (.gnd sh e z)).length * |val (.gnd sh e z)|) :=
    fun z _ => (((A.dist_rel h0 h1 _ _ : Rel ε 3 (A.length (l' (.gnd sh e z))) _).near h0 h1
      (Line.length_nonneg _)).mul h0 h1 (near_self (ε := ε) (le_refl |val (.gnd sh e z)|))).round h0 h1
        (A.mul_err _ _)
  have z : Near ε 4 (0 : ℝ) 0 0 := (near_self (by simp)).mono h0 h1 (Nat.zero_le 4)
  have := A.foldl_near h0 h1 _ _ _ _ one le_rfl z
  rw [zero_add, zero_add, List.length_range] at this
  rw [elemWW_sum, elemWW_sum, show 5 + p.nRows = 4 + (p.nRows + 1) by omega]
  exact this

theorem groundWW_near (p : ArrayParams) (l' : SurfRef → Line) (val : SurfRef → ℝ) :
    Near ε (6 + 3 * p.nRows) (A.groundWW p (fun a => A.length (l' a)) val)
      ((groundRefs p).map fun a => (l' a).length * val a).sum
      ((groundRefs p).map fun a => (l' a).length * |val a|).sum := by
  have z : Near ε (5 + p.nRows) (0 : ℝ) 0 0 := (near_self (by simp)).mono h0 h1 (Nat.zero_le _)
  have s := A.foldl_near h0 h1 _ _ _ (List.range p.nRows)
    (fun e _ => A.elemWW_near h0 h1 p l' val true e) le_rfl z
  have := A.foldl_near h0 h1 _ _ _ (List.range (p.nRows + 1))
    (fun e _ => A.elemWW_near h0 h1 p l' val false e) (Nat.le_add_right _ _) s
  rw [← groundWW_sum p (fun a => (l' a).length) val,
    ← groundWW_sum p (fun a => (l' a).length) fun a => |val a|, PVF.groundWW, PVF.groundWW, foldl_add_sum,
    foldl_add_sum, foldl_add_sum, foldl_add_sum]
  rw [List.length_range, List.length_range,
    show 5 + p.nRows + p.nRows + (p.nRows + 1) = 6 + 3 * p.nRows by omega] at this
  exact this

theorem groundLength_rel (p : ArrayParams) (g : StepGeom) (hr : g.ground.nRows = p.nRows) :
    Rel ε (4 + 2 * p.nRows) (A.groundLength p g) g.ground.length ∧
    Rel ε (3 + p.nRows) (A.groundShadedLength p g) g.ground.shadedLength := by
  have z : Rel ε 3 (0 : ℝ) 0 := ⟨by simp, by simp⟩
  have s := A.foldl_rel h0 h1 (fun e => A.elemLength g true e) (fun e => (g.ground.shadowEl e).length) (j := 3)
    (List.range p.nRows) (fun e _ => ⟨A.dist_rel h0 h1 _ _, Line.length_nonneg _⟩) le_rfl z le_rfl
  rw [zero_add, List.length_range] at s
  have := A.foldl_rel h0 h1 (fun e => A.elemLength g false e) (fun e => (g.ground.illumEl e).length) (j := 3)
    (List.range (p.nRows + 1)) (fun e _ => ⟨A.dist_rel h0 h1 _ _, Line.length_nonneg _⟩)
    (Nat.le_add_right _ _) s (List.sum_nonneg (by
      intro x hx
      obtain ⟨a, -, rfl⟩ := List.mem_map.1 hx
      exact Line.length_nonneg _))
  rw [List.length_range, show 3 + p.nRows + (p.nRows + 1) = 4 + 2 * p.nRows by omega] at this
  rw [GroundIn.length, GroundIn.shadedLength, hr]
  exact ⟨this, s⟩

end Arith

/-- C106: computed lengths of the ground and of the shaded ground, for any coordinates with errors. -/
theorem C106_length {ε τ : ℝ} (h0 : 0 ≤ ε) (h1 : ε < 1) (A : Arith ε) (p : ArrayParams) (u : StepIn)
    (hp : PhysicalArray p) (hst : PhysicalStep p u) (g' : StepGeom) (hn : CoordsNear p (fitStep p u) g' τ)
    (hc' : g'.ground.cuts.length = p.nRows) (hr' : g'.ground.nRows = p.nRows) :
    let m := 2 * (2 * p.nRows + 1) * (p.nRows + 1) * τ
    |A.groundLength p g' - 200| ≤ (grow ε ^ (4 + 2 * p.nRows) - 1) * (200 + m) + m ∧
    |A.groundShadedLength p g' - (fitStep p u).ground.shadedLength|
      ≤ (grow ε ^ (3 + p.nRows) - 1) * (200 + m) + 2 * p.nRows * (p.nRows + 1) * τ := by
  intro m
  have hL := (C17_tiling p u hp.width_pos hp.gcr_pos hst.sun_y hst.sun_front hst.shade_ok).2.1
  obtain ⟨n1, n2⟩ := hn.ground_length (fit_cuts_length p _ _) hc' rfl hr'
  obtain ⟨r1, r2⟩ := A.groundLength_rel h0 h1 p g' hr'
  rw [hL] at n1
  have nn : ∀ (k : ℕ) (f : ℕ → Line), 0 ≤ ((List.range k).map fun i => (f i).length).sum := fun k f =>
    List.sum_nonneg (by
      intro x hx
      obtain ⟨a, -, rfl⟩ := List.mem_map.1 hx
      exact Line.length_nonneg _)
  have s0 : 0 ≤ g'.ground.shadedLength := nn _ _
  have s1 : g'.ground.shadedLength ≤ g'.ground.length := by
    rw [GroundIn.length, GroundIn.shadedLength]
    exact le_add_of_nonneg_right (nn _ _)
  have q1 := (r1.near h0 h1 (s0.trans s1)).1
  have q2 := (r2.near h0 h1 s0).1
  have g1 := grow_pow_one h0 h1 (4 + 2 * p.nRows)
  have g2 := grow_pow_one h0 h1 (3 + p.nRows)
  push_cast at n1 n2
  have up : g'.ground.length ≤ 200 + m := by
    have : m = (2 * p.nRows + 1) * (p.nRows + 1) * (2 * τ) := by simp only [m]; ring
    linarith [(abs_le.1 n1).2]
  have u1 := mul_le_mul_of_nonneg_left up (by linarith : 0 ≤ grow ε ^ (4 + 2 * p.nRows) - 1)
  have u2 := mul_le_mul_of_nonneg_left (s1.trans up) (by linarith : 0 ≤ grow ε ^ (3 + p.nRows) - 1)
  have em : m = (2 * p.nRows + 1) * (p.nRows + 1) * (2 * τ) := by simp only [m]; ring
  constructor
  · refine (abs_sub_le _ g'.ground.length _).trans (add_le_add (q1.trans u1) (n1.trans (le_of_eq em.symm)))
  · refine (abs_sub_le _ g'.ground.shadedLength _).trans
      (add_le_add (q2.trans u2) (n2.trans (le_of_eq (by ring))))

/-- C106: weighted value of the ground, for any coordinates and values with errors. -/
theorem C106_ground {ε τ V e : ℝ} (h0 : 0 ≤ ε) (h1 : ε < 1) (A : Arith ε) (p : ArrayParams) (u : StepIn)
    (hp : PhysicalArray p) (hst : PhysicalStep p u) (g' : StepGeom) (hn : CoordsNear p (fitStep p u) g' τ)
    (hc' : g'.ground.cuts.length = p.nRows) (hr' : g'.ground.nRows = p.nRows) (v' v : SurfRef → ℝ)
    (he : ∀ a ∈ groundRefs p, |v' a - v a| ≤ e) (hV : ∀ a ∈ groundRefs p, |v a| ≤ V)
    (hτ : (2 * p.nRows + 1) * (p.nRows + 1) * (2 * τ) < 200) :
    |A.groundWeighted p g' v' - groundWeighted p (fitStep p u) v|
      ≤ groundMeanErr (11 + 5 * p.nRows) ((2 * p.nRows + 1) * (p.nRows + 1)) ε 200 (2 * τ) V e := by
  obtain ⟨hS, hL, -⟩ := C17_tiling p u hp.width_pos hp.gcr_pos hst.sun_y hst.sun_front hst.shade_ok
  have n1 := (hn.ground_length (fit_cuts_length p _ _) hc' rfl hr').1
  rw [hL] at n1
  have m0 : SurfRef.gnd false 0 0 ∈ groundRefs p := by simp [groundRefs]
  obtain ⟨P, b, t⟩ := quotient_near (groundRefs p) (fun a => (g'.coords a).length)
    (fun a => ((fitStep p u).coords a).length) v' v (fun a _ => Line.length_nonneg _)
    (fun a _ => Line.length_nonneg _)
    (fun a ha => hn.length (mem_surfaces.2 (List.mem_append_left _ ha))) he hV
    ((abs_nonneg _).trans (hV _ m0)) ((abs_nonneg _).trans (he _ m0)) (groundRefs_length p) hS n1
    (by push_cast; exact hτ)
  have q := ((A.groundWW_near h0 h1 p g'.coords v').div h0 h1 (A.groundLength_rel h0 h1 p g' hr').1 P).round
    h0 h1 (A.div_err _ _)
  have q1 := q.1
  have g := grow_pow_one h0 h1 (11 + 5 * p.nRows)
  rw [show 6 + 3 * p.nRows + (4 + 2 * p.nRows) + 1 = 11 + 5 * p.nRows by omega] at q1
  have q2 := q1.trans (mul_le_mul_of_nonneg_left t (by linarith))
  rw [groundWeighted, groundWW_sum, hL]
  refine (abs_sub_le _ _ _).trans ((add_le_add q2 b).trans ?_)
  unfold groundMeanErr
  linarith

/-- C106: weighted value of an element of the ground that is long enough. -/
theorem C106_element {ε τ V e : ℝ} (h0 : 0 ≤ ε) (h1 : ε < 1) (A : Arith ε) (p : ArrayParams) (u : StepIn)
    (hp : PhysicalArray p) (hst : PhysicalStep p u) (g' : StepGeom) (hn : CoordsNear p (fitStep p u) g' τ)
    (hc' : g'.ground.cuts.length = p.nRows) (sh : Bool) (i : ℕ)
    (hi : i < if sh then p.nRows else p.nRows + 1) (v' v : SurfRef → ℝ)
    (he : ∀ z < p.nRows + 1, |v' (.gnd sh i z) - v (.gnd sh i z)| ≤ e)
    (hV : ∀ z < p.nRows + 1, |v (.gnd sh i z)| ≤ V) (L : ℝ)
    (hL : (if sh then (fitStep p u).ground.shadowEl i else (fitStep p u).ground.illumEl i).length = L)
    (hτ : (p.nRows + 1) * (2 * τ) < L) :
    |A.elemWeighted p g' v' sh i - elemWeighted p (fitStep p u) v sh i|
      ≤ groundMeanErr (9 + p.nRows) (p.nRows + 1) ε L (2 * τ) V e := by
  have hlen : ((fitStep p u).elem sh i).length = L := hL
  have n1 := hn.elem_length (fit_cuts_length p _ _) hc' hi
  rw [hlen] at n1
  obtain ⟨P, b, t⟩ := quotient_near (List.range (p.nRows + 1)) (fun z => (g'.coords (.gnd sh i z)).length)
    (fun z => ((fitStep p u).coords (.gnd sh i z)).length) (fun z => v' (.gnd sh i z))
    (fun z => v (.gnd sh i z)) (fun a _ => Line.length_nonneg _)
    (fun a _ => Line.length_nonneg _)
    (fun z hz => hn.length (mem_surfaces.2 (mem_allRefs_gnd.2 ⟨hi, List.mem_range.1 hz⟩)))
    (fun z hz => he z (List.mem_range.1 hz)) (fun z hz => hV z (List.mem_range.1 hz))
    ((abs_nonneg _).trans (hV 0 (by omega))) ((abs_nonneg _).trans (he 0 (by omega)))
    (List.length_range) ((elem_pieces_length p u hp hst hi).trans hL) (by push_cast; exact n1) (by push_cast; exact hτ)
  have q := ((A.elemWW_near h0 h1 p g'.coords v' sh i).div h0 h1
    (A.dist_rel h0 h1 _ _ : Rel ε 3 (A.elemLength g' sh i) (g'.elem sh i).length) P).round
    h0 h1 (A.div_err _ _)
  rw [elemWW_sum, elemWW_sum] at q
  have q1 := q.1
  have g := grow_pow_one h0 h1 (9 + p.nRows)
  rw [show 5 + p.nRows + 3 + 1 = 9 + p.nRows by omega] at q1
  have q2 := q1.trans (mul_le_mul_of_nonneg_left t (by linarith))
  change |A.elemWeighted p g' v' sh i
    - PVF.elemWW p _ v sh i / ((fitStep p u).elem sh i).length| ≤ _
  rw [elemWW_sum, hlen]
  refine (abs_sub_le _ _ _).trans ((add_le_add q2 b).trans ?_)
  unfold groundMeanErr
  linarith

/-- C106: average incident light of the ground in full mode, computed from the inputs with rounding
errors; the rows may be horizontal at some or all time steps. -/
theorem C106_full_mode {ι : Type*} [Fintype ι] {ε B K G D w c E : ℝ} (h0 : 0 < ε)
    (A : TrigArith ε) (hA : A.toArith.Ordered)
    (hπ : 0 ≤ A.sind (A.add 0 180)) (T : SumTree) (p : ArrayParams) (u : ι → StepIn) (s : ι → IrrStep)
    (aoi : ι → Option (List Asg)) (o : ι → FullOut) (hrun : runFullMode p u s aoi = some o)
    (hinv : ∀ t, InverseOk p (s t)) (t : ι)
    (t' : LightTerms) (ht : TermsNear (surfaces p) E t' (s t).light)
    (hp : PhysicalArray p) (hst : ∀ t, PhysicalStep p (u t)) (hB : ArraySize p B)
    (hK : 0 ≤ K) (hu : ∀ t, StepMargin p (u t) ε K G ∨ FlatMargin p (u t) K G)
    (hS : 20 * sineErr ε G * K ^ 3 ≤ 1)
    (hd : shadeErr ε (trigErr ε K G) B K * K < p.distance)
    (hTOL : shadeErr ε (trigErr ε K G) B K < TOL)
    (hf : ∀ t x, x = (interrowShading p (fitStep p (u t)).alpha (fitStep p (u t)).rot.deg).1 ∨
      x = (interrowShading p (fitStep p (u t)).alpha (fitStep p (u t)).rot.deg).2 →
        x = 0 ∨ 2 * TOL ≤ x)
    (hw : w ≤ p.width)
    (hlong : ∀ t, ∀ a ∈ surfaces p, ((fitStep p (u t)).coords a).length = 0 ∨
      w ≤ ((fitStep p (u t)).coords a).length)
    (hT : T.leaves = Multiset.range (nTsSurfaces p))
    (hs : SceneSize p (fitStep p (u t)) (isEmptyTs fun t => fitStep p (u t)) D w)
    (hc : c ≤ p.height - p.width / 2 * sind (u t).surfaceTilt)
    (τ : ℝ) (hτd : τ = sceneErr ε (trigErr ε K G) B K (1 / K)) (hτ : 2 * K * τ < w)
    (hτT : 4 * τ ≤ TOL) (hτn : Fintype.card ι * (2 * τ) < TOL) (hτc : 4 * τ < c)
    (hw2 : 2 * TOL ≤ w - 2 * τ)
    (r : ℝ) (hr : ∀ a ∈ surfaces p, 0 ≤ (s t).rho a ∧ (s t).rho a ≤ r) (hr1 : r < 1)
    (q0' qinc' : SurfRef → ℝ) (sky' η₁ η₂ M H V : ℝ)
    (hH : ∀ a ∈ surfaces p, termSumErr ((s t).comp a).length ε E (((s t).comp a).map fun x => |x|).sum ≤ H)
    (hsol : NearlySolved p (A.vfMatrix T p (A.fitStep p (u t)) (isEmptyTs fun t => A.fitStep p (u t)))
      (fun a => A.sumComponents (t'.comp a)) (s t).rho (s t).sky
      (fun a => A.sumComponents (t'.comp a)) q0' qinc' sky' η₁ η₂ 0 M)
    (hV : ∀ a ∈ groundRefs p, |(o t).qinc a| ≤ V)
    (hτg : (2 * p.nRows + 1) * (p.nRows + 1) * (2 * τ) < 200) :
    let E := entryBound ε (D + 2 * τ) (w - 2 * τ) (c - 2 * τ) (2 * τ)
      + entryMove (D + 2 * τ) (w - 2 * τ) (c - 2 * τ) (2 * τ) τ
    |A.groundWeighted p (A.fitStep p (u t)) qinc' - groundWeighted p (fitStep p (u t)) (o t).qinc|
      ≤ groundMeanErr (11 + 5 * p.nRows) ((2 * p.nRows + 1) * (p.nRows + 1)) ε 200 (2 * τ) V
        ((η₁ + η₂ + H + rowErrors (nTsSurfaces p) ε E * M) / (1 - r)) := by
  intro E'
  refine C106_ground h0.le (small_eps h0 hK (hu t) hS) A.toArith p (u t) hp (hst t) _ ?_ ?_ rfl
    qinc' (o t).qinc
    (fun a ha => C103_full_light h0 A hA hπ T p u s aoi o hrun hinv t t' ht hp hst hB hK hu hS hd hTOL hf hw hlong hT hs
      hc τ hτd hτ hτT hτn hτc hw2 r hr hr1 q0' qinc' sky' η₁ η₂ M H hH hsol a
      (mem_surfaces.2 (List.mem_append_left _ ha))) hV hτg
  · rw [hτd]
    exact C102_any_step h0 A hA hπ p (u t) hp (hst t) hB hK (hu t) hS hd hTOL (hf t) hw (hlong t) (hτd ▸ hτ)
  · simp [TrigArith.fitStep, Arith.fitGeom]

/-- Light on the ground: shaded parts get 100, the others 900. -/
def groundLight : SurfRef → ℝ
  | .gnd sh _ _ => if sh then 100 else 900
  | .pv .. => 0

/-- C106 (witness).  The lengths and averages of the ground of the array of two rows, one time with tilted
and one time with horizontal rows, computed from the inputs with rounding errors. -/
theorem C106_demo (t : Fin 2) :
    let A := smallPi (1 / 2 ^ 53) (by norm_num)
    let g' := A.fitStep vertArray (vertFlat t)
    let x' := A.groundWeighted vertArray g' groundLight
    let x := groundWeighted vertArray (fitStep vertArray (vertFlat t)) groundLight
    |A.groundLength vertArray g' - 200| ≤ 1 / 10 ^ 8 ∧ |x' - x| ≤ 1 / 10 ^ 6 ∧ 100 ≤ x ∧
    (t = 0 → |A.elemWeighted vertArray g' groundLight true 0 - 100| ≤ 1 / 10 ^ 6) := by
  intro A g' x' x
  have hst : PhysicalStep vertArray (vertFlat t) := by
    unfold vertFlat; split_ifs
    · exact vert_physicalStep
    · exact flat_physicalStep
  have hrow : vertArray.nRows = 2 := rfl
  have hn := (C102_demo t).2.1
  have hc : g'.ground.cuts.length = vertArray.nRows := by
    simp [g', TrigArith.fitStep, Arith.fitGeom]
  have hV : ∀ a ∈ groundRefs vertArray, 100 ≤ groundLight a ∧ groundLight a ≤ 900 := by
    intro a ha
    obtain ⟨sh, e, z, rfl⟩ : ∃ sh e z, a = .gnd sh e z := by
      simp only [groundRefs, List.mem_append, List.mem_flatMap, List.mem_map] at ha
      rcases ha with ⟨e, -, z, -, rfl⟩ | ⟨e, -, z, -, rfl⟩ <;> exact ⟨_, _, _, rfl⟩
    cases sh <;> norm_num [groundLight]
  refine ⟨?_, ?_, ?_, ?_⟩
  · have := (C106_length (by norm_num) (by norm_num) A.toArith vertArray (vertFlat t) vert_physicalArray hst g'
      hn hc rfl).1
    rw [hrow] at this
    refine this.trans ?_
    norm_num [grow]
  · have := C106_ground (V := 900) (e := 0) (by norm_num) (by norm_num) A.toArith vertArray (vertFlat t)
      vert_physicalArray hst g' hn hc rfl groundLight groundLight (fun a _ => by simp) (fun a ha => by
        have := hV a ha
        rw [abs_le]; constructor <;> linarith) (by rw [hrow]; norm_num)
    rw [hrow] at this
    refine this.trans ?_
    norm_num [groundMeanErr, grow]
  · exact ((C37_ground vertArray (vertFlat t) groundLight vert_physicalArray hst).2 100 900
      fun a ha _ => hV a ha).1
  · rintro rfl
    have hl : ((fitStep vertArray (vertFlat 0)).ground.shadowEl 0).length = 2 := by
      change ((fitStep vertArray vertStep).ground.shadowEl 0).length = 2
      rw [Line.length_ground rfl]
      unfold GroundIn.shadowEl
      rw [vert_xs 0 (by norm_num)]
      norm_num [clip, MIN_X, MAX_X]
    have := C106_element (V := 100) (e := 0) (by norm_num) (by norm_num) A.toArith vertArray (vertFlat 0)
      vert_physicalArray hst g' hn hc true 0 (by simp [vertArray]) groundLight groundLight (fun a _ => by simp)
      (fun z _ => by norm_num [groundLight]) 2 hl (by rw [hrow]; norm_num)
    have e : elemWeighted vertArray (fitStep vertArray (vertFlat 0)) groundLight true 0 = 100 := by
      have h := (C37_ground_element vertArray (vertFlat 0) groundLight true 0 vert_physicalArray hst
        (by simp [vertArray]) (by
          rw [elem_pieces_length vertArray _ vert_physicalArray hst (by simp [vertArray])]
          exact lt_of_lt_of_eq two_pos hl.symm)).2 100 100 fun z _ _ => by norm_num [groundLight]
      exact le_antisymm h.2 h.1
    rw [hrow, e] at this
    refine this.trans ?_
    norm_num [groundMeanErr, grow]

end PVF

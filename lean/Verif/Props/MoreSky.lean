import Verif.Props.SkyForm
import Verif.Props.Shape
import Mathlib.Analysis.Convex.Slope

/-!
# Who sees more sky (C85)
-/

namespace PVF

variable {ι : Type} [Fintype ι]

/-- The distance from a point is convex along a line. -/
theorem dist_convex (Z A v : Pt) :
    ConvexOn ℝ Set.univ fun τ : ℝ => distPt Z ⟨A.x + τ * v.x, A.y + τ * v.y⟩ := by
  refine ⟨convex_univ, fun x _ y _ a b ha hb hab => ?_⟩
  simp only [smul_eq_mul, distPt_eq_norm]
  have e : (⟨A.x + (a * x + b * y) * v.x, A.y + (a * x + b * y) * v.y⟩ : Pt).toC - Z.toC
      = (a : ℂ) * ((⟨A.x + x * v.x, A.y + x * v.y⟩ : Pt).toC - Z.toC)
        + (b : ℂ) * ((⟨A.x + y * v.x, A.y + y * v.y⟩ : Pt).toC - Z.toC) := by
    apply Complex.ext
    · simp [Pt.toC]
      linear_combination (1 - a - b) * 0 + (A.x - Z.x) * (-hab)
    · simp [Pt.toC]
      linear_combination (A.y - Z.y) * (-hab)
  rw [e]
  refine (norm_add_le _ _).trans (le_of_eq ?_)
  rw [norm_mul, norm_mul, Complex.norm_real, Complex.norm_real, Real.norm_of_nonneg ha,
    Real.norm_of_nonneg hb]

/-- Along a line the distance from a point grows the faster the farther one goes. -/
theorem dist_slopes (Z A v : Pt) {t1 t2 t3 t4 : ℝ} (h12 : t1 < t2) (h23 : t2 ≤ t3) (h34 : t3 < t4) :
    let f := fun τ : ℝ => distPt Z ⟨A.x + τ * v.x, A.y + τ * v.y⟩
    (f t2 - f t1) / (t2 - t1) ≤ (f t4 - f t3) / (t4 - t3) := by
  intro f
  have hc := dist_convex Z A v
  rcases eq_or_lt_of_le h23 with rfl | h23
  · exact hc.slope_mono_adjacent (Set.mem_univ _) (Set.mem_univ _) h12 h34
  · exact (hc.slope_mono_adjacent (Set.mem_univ _) (Set.mem_univ _) h12 h23).trans
      (hc.slope_mono_adjacent (Set.mem_univ _) (Set.mem_univ _) h23 h34)

theorem tPt_along (p : ArrayParams) (rot : ℝ) (r : ℕ) (τ : ℝ) :
    tPt (rowCenter p r) p.width rot τ
      = ⟨lowX p true rot r + τ * upX true rot, lowY p rot + τ * upY rot⟩ := by
  have := vp_eq p true rot r τ
  simpa [vp, mirB] using this

theorem row_slopes (p : ArrayParams) (rot : ℝ) (r : ℕ) (Z : Pt) {t1 t2 t3 t4 : ℝ} (h12 : t1 < t2)
    (h23 : t2 ≤ t3) (h34 : t3 < t4) :
    (distPt Z (tPt (rowCenter p r) p.width rot t2) - distPt Z (tPt (rowCenter p r) p.width rot t1))
      / (t2 - t1)
    ≤ (distPt Z (tPt (rowCenter p r) p.width rot t4) - distPt Z (tPt (rowCenter p r) p.width rot t3))
      / (t4 - t3) := by
  simp only [tPt_along]
  exact dist_slopes Z ⟨lowX p true rot r, lowY p rot⟩ ⟨upX true rot, upY rot⟩ h12 h23 h34

theorem half_slope {l δ : ℝ} (hl : 0 < l) : (l + δ) / (2 * l) = 1 / 2 + δ / l / 2 := by
  field_simp

theorem half_slope' {l δ : ℝ} (hl : 0 < l) : (l - δ) / (2 * l) = 1 / 2 - δ / l / 2 := by
  field_simp

theorem full_ends {p : ArrayParams} {u : StepIn} (hp : PhysicalArray p) (hu : PhysicalStep p u)
    (j : ℕ) : ∃ O T, ((fitStep p u).row j).full.Ends O T := by
  have hph : Physical p (fitStep p u).rot.deg := physical_of hp hu
  refine ⟨tPt (rowCenter p j) p.width (fitStep p u).rot.deg 0,
    tPt (rowCenter p j) p.width (fitStep p u).rot.deg p.width, ?_, full_row_t j⟩
  rw [tPt_y, tPt_y]
  nlinarith [mul_nonneg hph.width.le hph.upY_nonneg]

/-- The order of heights is the order along the row. -/
theorem height_order {p : ArrayParams} {rot : ℝ} (h : Physical p rot) (h0 : rot ≠ 0) {r : ℕ}
    {x y : ℝ} (hxy : (tPt (rowCenter p r) p.width rot x).y ≤ (tPt (rowCenter p r) p.width rot y).y) :
    x ≤ y := by
  rw [tPt_y, tPt_y] at hxy
  have := upY_pos h.lo h.hi h0
  exact le_of_mul_le_mul_right (by linarith) this

section
variable (p : ArrayParams) (r : ℕ) (s : RowSide) (k k' : ℕ) (sh sh' : Bool) (lo hi lo' hi' : Pt)
    (ha : SurfRef.pv r s k sh ∈ surfaces p) (hb : SurfRef.pv r s k' sh' ∈ surfaces p)

include ha hb in
/-- Two surfaces of one side, one above the other. -/
theorem two_slopes (u : StepIn) (hp : PhysicalArray p) (hu : PhysicalStep p u)
    (hla : lengthAt p u (.pv r s k sh) > TOL) (hlb : lengthAt p u (.pv r s k' sh') > TOL)
    (htilt : u.surfaceTilt ≠ 0) (hends : ((fitStep p u).coords (.pv r s k sh)).Ends lo hi)
    (hends' : ((fitStep p u).coords (.pv r s k' sh')).Ends lo' hi') (hab : hi.y ≤ lo'.y) (Z : Pt) :
    (distPt Z hi - distPt Z lo) / lengthAt p u (.pv r s k sh)
      ≤ (distPt Z hi' - distPt Z lo') / lengthAt p u (.pv r s k' sh') := by
  have hT := TOL_pos
  have hph : Physical p (fitStep p u).rot.deg := physical_of hp hu
  have h0 : (fitStep p u).rot.deg ≠ 0 := rot_ne p (fun _ : Unit => u) () htilt
  obtain ⟨e1, e2, hL, -⟩ := ends_t p (fun _ : Unit => u) () hp hu r s k sh ha hla htilt lo hi hends
  obtain ⟨e1', e2', hL', -⟩ := ends_t p (fun _ : Unit => u) () hp hu r s k' sh' hb hlb htilt lo' hi'
    hends'
  rw [e2, e1'] at hab
  have h23 := height_order hph h0 hab
  rw [hL] at hla
  rw [hL'] at hlb
  rw [hL, hL', e1, e2, e1', e2']
  exact row_slopes p _ r Z (by linarith) h23 (by linarith)

/-- C85: in fast mode, of two surfaces on the back of a row with a row behind it, the higher one sees
at least as much sky and at most as much ground. -/
theorem C85_higher_fast (hs : s = .back) (u : StepIn) (hp : PhysicalArray p) (hu : PhysicalStep p u)
    (ha : SurfRef.pv r s k sh ∈ surfaces p) (hb : SurfRef.pv r s k' sh' ∈ surfaces p)
    (hla : lengthAt p u (.pv r s k sh) > TOL) (hlb : lengthAt p u (.pv r s k' sh') > TOL)
    (htilt : u.surfaceTilt ≠ 0) (hends : ((fitStep p u).coords (.pv r s k sh)).Ends lo hi)
    (hends' : ((fitStep p u).coords (.pv r s k' sh')).Ends lo' hi') (hab : hi.y ≤ lo'.y) (j : ℕ)
    (hj : (LooksLeft (fitStep p u) s → r = j + 1) ∧
      (¬ LooksLeft (fitStep p u) s → j = r + 1 ∧ j < p.nRows)) :
    let g := fitStep p u
    let low := fastVF p g r (g.coords (.pv r s k sh))
    let high := fastVF p g r (g.coords (.pv r s k' sh'))
    low.toSky ≤ high.toSky ∧ high.toGndTotal ≤ low.toGndTotal := by
  subst hs
  intro g low high
  obtain ⟨O, T, hOT⟩ := full_ends hp hu j
  obtain ⟨a1, a2⟩ := C84_fast p u hp hu r k sh ha hla htilt lo hi hends j hj O T hOT
  obtain ⟨b1, b2⟩ := C84_fast p u hp hu r k' sh' hb hlb htilt lo' hi' hends' j hj O T hOT
  have sT := two_slopes p r .back k k' sh sh' lo hi lo' hi' ha hb u hp hu hla hlb htilt hends hends'
    hab T
  have sO := two_slopes p r .back k k' sh sh' lo hi lo' hi' ha hb u hp hu hla hlb htilt hends hends'
    hab O
  have la := TOL_pos.trans hla
  have lb := TOL_pos.trans hlb
  change low.toSky = _ at a1
  change high.toSky = _ at b1
  change low.toGndTotal = _ at a2
  change high.toGndTotal = _ at b2
  rw [a1, a2, b1, b2, half_slope la, half_slope lb, half_slope' la, half_slope' lb]
  constructor <;> linarith

variable (u : ι → StepIn) (t : ι) (hp : PhysicalArray p) (hu : PhysicalStep p (u t))
    (hlen : ∀ b ∈ surfaces p, lengthAt p (u t) b = 0 ∨ lengthAt p (u t) b > TOL)
    (hla : lengthAt p (u t) (.pv r s k sh) > TOL) (hlb : lengthAt p (u t) (.pv r s k' sh') > TOL)
    (htilt : (u t).surfaceTilt ≠ 0) (c : ℝ) (hcg : MIN_X ≤ c ∧ c ≤ MAX_X)
    (hc : Aligned ⟨c, 0⟩ ((fitStep p (u t)).row r).full.b1 ((fitStep p (u t)).row r).full.b2)
    (hends : ((fitStep p (u t)).coords (.pv r s k sh)).Ends lo hi)
    (hends' : ((fitStep p (u t)).coords (.pv r s k' sh')).Ends lo' hi') (hab : hi.y ≤ lo'.y)
include ha hb hp hu hlen hla hlb htilt hcg hc hends hends' hab

/-- C85: in full mode, of two surfaces on a side that no row stands in front of, the higher one sees
at least as much sky and at most as much ground. -/
theorem C85_higher_edge
    (hr : (LooksLeft (fitStep p (u t)) s → r = 0) ∧
      (¬ LooksLeft (fitStep p (u t)) s → r = p.nRows - 1)) :
    let F := tsVfMatrix p u t
    let low := SurfRef.pv r s k sh
    let high := SurfRef.pv r s k' sh'
    vfToSky p F low ≤ vfToSky p F high ∧
    vfToPart p F high SurfRef.isGround ≤ vfToPart p F low SurfRef.isGround := by
  intro F low high
  classical
  have hE := (⟨fun h => if_pos h, fun h => if_neg h⟩ :
    (LooksLeft (fitStep p (u t)) s → (if LooksLeft (fitStep p (u t)) s then (⟨MIN_X, 0⟩ : Pt)
      else ⟨MAX_X, 0⟩) = ⟨MIN_X, 0⟩) ∧ (¬ LooksLeft (fitStep p (u t)) s →
      (if LooksLeft (fitStep p (u t)) s then (⟨MIN_X, 0⟩ : Pt) else ⟨MAX_X, 0⟩) = ⟨MAX_X, 0⟩))
  generalize (if LooksLeft (fitStep p (u t)) s then (⟨MIN_X, 0⟩ : Pt) else ⟨MAX_X, 0⟩) = E at hE
  obtain ⟨a1, -, a2⟩ := C84_edge_exact p u t hp hu hlen r s k sh ha hla htilt c hcg hc lo hi hends hr E hE
  obtain ⟨b1, -, b2⟩ := C84_edge_exact p u t hp hu hlen r s k' sh' hb hlb htilt c hcg hc lo' hi' hends' hr
    E hE
  have sE := two_slopes p r s k k' sh sh' lo hi lo' hi' ha hb (u t) hp hu hla hlb htilt hends hends'
    hab E
  have la := TOL_pos.trans hla
  have lb := TOL_pos.trans hlb
  simp only [F, low, high]
  rw [a1, a2, b1, b2, half_slope la, half_slope lb, half_slope' la, half_slope' lb]
  constructor <;> linarith

/-- C85: the same for the sky on a side with a row `j` in front of it that hides the end of the
ground. -/
theorem C85_higher_inner (j : ℕ)
    (hj : (LooksLeft (fitStep p (u t)) s → r = j + 1) ∧
      (¬ LooksLeft (fitStep p (u t)) s → j = r + 1 ∧ j < p.nRows))
    (hcut : 0 < p.nFront j ∧ 0 < p.nBack j)
    (hhide : ∃ O T, ((fitStep p (u t)).row j).full.Ends O T ∧
      (∃ x : ℝ, (MIN_X ≤ x ∧ x ≤ MAX_X) ∧ Aligned ⟨x, 0⟩ O lo) ∧
      (∃ x : ℝ, (MIN_X ≤ x ∧ x ≤ MAX_X) ∧ Aligned ⟨x, 0⟩ O lo')) :
    let F := tsVfMatrix p u t
    vfToSky p F (.pv r s k sh) ≤ vfToSky p F (.pv r s k' sh') := by
  intro F
  classical
  obtain ⟨O, T, hOT, h1, h2⟩ := hhide
  have hE := (⟨fun h => if_pos h, fun h => if_neg h⟩ :
    (LooksLeft (fitStep p (u t)) s → (if LooksLeft (fitStep p (u t)) s then (⟨MIN_X, 0⟩ : Pt)
      else ⟨MAX_X, 0⟩) = ⟨MIN_X, 0⟩) ∧ (¬ LooksLeft (fitStep p (u t)) s →
      (if LooksLeft (fitStep p (u t)) s then (⟨MIN_X, 0⟩ : Pt) else ⟨MAX_X, 0⟩) = ⟨MAX_X, 0⟩))
  generalize (if LooksLeft (fitStep p (u t)) s then (⟨MIN_X, 0⟩ : Pt) else ⟨MAX_X, 0⟩) = E at hE
  have a := (C84_inner p u t hp hu hlen r s k sh ha hla htilt c hcg hc lo hi hends j hj hcut O T hOT
    E hE).2.2 h1
  have b := (C84_inner p u t hp hu hlen r s k' sh' hb hlb htilt c hcg hc lo' hi' hends' j hj hcut O T
    hOT E hE).2.2 h2
  have sT := two_slopes p r s k k' sh sh' lo hi lo' hi' ha hb (u t) hp hu hla hlb htilt hends hends'
    hab T
  simp only [F]
  rw [a, b, half_slope (TOL_pos.trans hla), half_slope (TOL_pos.trans hlb)]
  linarith

end

/-- Two points on a horizontal line and two points on another line through a point of it, both on
the same side: the crossing strings are the longer ones. -/
theorem apart_quad {D D' x y n : ℝ} (hD : 0 ≤ D) (hDD : D ≤ D') (hn0 : 0 ≤ n) (hn1 : n ≤ 1) :
    distPt ⟨-D', 0⟩ ⟨x, y⟩ + distPt ⟨-D, 0⟩ ⟨n * x, n * y⟩
      ≤ distPt ⟨-D', 0⟩ ⟨n * x, n * y⟩ + distPt ⟨-D, 0⟩ ⟨x, y⟩ := by
  rcases eq_or_lt_of_le hDD with rfl | hlt
  · linarith
  · have hpos : 0 < D' - n * D := by nlinarith
    obtain ⟨q, hq⟩ : ∃ q, q = (D' - D) / (D' - n * D) := ⟨_, rfl⟩
    have h0 : 0 ≤ q := by rw [hq]; exact div_nonneg (by linarith) hpos.le
    have h1 : q ≤ 1 := by rw [hq, div_le_one hpos]; nlinarith
    have hm : q * (D' - n * D) = D' - D := by rw [hq]; exact div_mul_cancel₀ _ hpos.ne'
    refine quad (t := q) (s := n * q) ?_ h0 h1 (mul_nonneg hn0 h0) (by nlinarith)
    ext
    · simp only [wayPt]; linear_combination hm
    · simp only [wayPt]; ring

theorem apart_scaled {D D' f m a b : ℝ} (hD : 0 ≤ D) (hDD : D ≤ D') (hf : f ≠ 0) (h0 : 0 ≤ m / f)
    (h1 : m / f ≤ 1) :
    distPt ⟨-D', 0⟩ ⟨f * a, f * b⟩ + distPt ⟨-D, 0⟩ ⟨m * a, m * b⟩
      ≤ distPt ⟨-D', 0⟩ ⟨m * a, m * b⟩ + distPt ⟨-D, 0⟩ ⟨f * a, f * b⟩ := by
  have h := apart_quad (x := f * a) (y := f * b) hD hDD h0 h1
  rwa [show m / f * (f * a) = m * a by field_simp, show m / f * (f * b) = m * b by field_simp] at h

/-- The distance of a point of a row from the point at `w` of the row in front of it. -/
theorem dist_rows (p : ArrayParams) (rot : ℝ) {r j : ℕ} (w τ : ℝ) (h : r = j + 1 ∨ j = r + 1) :
    ∃ σ : ℝ, (σ = if r = j + 1 then 1 else -1) ∧
    distPt (tPt (rowCenter p j) p.width rot w) (tPt (rowCenter p r) p.width rot τ)
      = distPt ⟨-p.distance, 0⟩ ⟨(τ - w) * (σ * upX true rot), (τ - w) * upY rot⟩ := by
  refine ⟨_, rfl, ?_⟩
  rw [tPt_along, tPt_along]
  unfold distPt
  congr 1
  simp only [lowX, sx, if_true]
  rcases h with h | h
  · rw [if_pos h, h]; push_cast; ring
  · rw [if_neg (by omega), h]; push_cast; ring

/-- C85: in fast mode, a surface on the back of a row with a row behind it sees at least as much sky
and at least as much ground, and at most as much of that row, if the rows stand farther apart,
everything else being the same. -/
theorem C85_apart (p : ArrayParams) (gcr' : ℝ) (hgcr : gcr' ≤ p.gcr) (u : StepIn)
    (hp : PhysicalArray p) (hp' : PhysicalArray { p with gcr := gcr' }) (hu : PhysicalStep p u)
    (hu' : PhysicalStep { p with gcr := gcr' } u) (r k k' : ℕ) (sh sh' : Bool)
    (ha : SurfRef.pv r .back k sh ∈ surfaces p)
    (ha' : SurfRef.pv r .back k' sh' ∈ surfaces { p with gcr := gcr' })
    (hl : lengthAt p u (.pv r .back k sh) > TOL)
    (hl' : lengthAt { p with gcr := gcr' } u (.pv r .back k' sh') > TOL)
    (htilt : u.surfaceTilt ≠ 0) (lo hi lo' hi' : Pt)
    (hends : ((fitStep p u).coords (.pv r .back k sh)).Ends lo hi)
    (hends' : ((fitStep { p with gcr := gcr' } u).coords (.pv r .back k' sh')).Ends lo' hi')
    (hlo : lo'.y = lo.y) (hhi : hi'.y = hi.y) (j : ℕ)
    (hj : (LooksLeft (fitStep p u) .back → r = j + 1) ∧
      (¬ LooksLeft (fitStep p u) .back → j = r + 1 ∧ j < p.nRows)) :
    let p' := { p with gcr := gcr' }
    let near := fastVF p (fitStep p u) r ((fitStep p u).coords (.pv r .back k sh))
    let far := fastVF p' (fitStep p' u) r ((fitStep p' u).coords (.pv r .back k' sh'))
    near.toSky ≤ far.toSky ∧ near.toGndTotal ≤ far.toGndTotal ∧
    far.toPvrowTotal ≤ near.toPvrowTotal := by
  intro p' near far
  have hph : Physical p (fitStep p u).rot.deg := physical_of hp hu
  have hph' : Physical p' (fitStep p' u).rot.deg := physical_of hp' hu'
  have h0 : (fitStep p u).rot.deg ≠ 0 := rot_ne p (fun _ : Unit => u) () htilt
  have hrr : (fitStep p' u).rot = (fitStep p u).rot := rfl
  obtain ⟨e1, e2, hL, i1, i2, i3⟩ := ends_t p (fun _ : Unit => u) () hp hu r .back k sh ha hl htilt
    lo hi hends
  obtain ⟨e1', e2', hL', -⟩ := ends_t p' (fun _ : Unit => u) () hp' hu' r .back k' sh' ha' hl'
    htilt lo' hi' hends'
  have hyy : ∀ x, (tPt (rowCenter p' r) p'.width (fitStep p' u).rot.deg x).y
      = (tPt (rowCenter p r) p.width (fitStep p u).rot.deg x).y := fun x => by
    rw [tPt_y, tPt_y]; rfl
  rw [e1, e1', hyy] at hlo
  rw [e2, e2', hyy] at hhi
  have q1 := le_antisymm (height_order hph h0 hlo.le) (height_order hph h0 hlo.ge)
  have q2 := le_antisymm (height_order hph h0 hhi.le) (height_order hph h0 hhi.ge)
  rw [q1] at e1' hL'
  rw [q2] at e2' hL'
  have hLL : lengthAt p' u (.pv r .back k' sh') = lengthAt p u (.pv r .back k sh) := hL'.trans hL.symm
  generalize hiv : pvIv p (fitStep p u).rot
    (solar2dVector u.solarZenith u.solarAzimuth p.axisAzimuth) r .back k sh = iv at *
  obtain ⟨x, y⟩ := iv
  simp only at e1 e2 e1' e2' i1 i2 i3
  have hD := hph.distance
  have hDD : p.distance ≤ p'.distance :=
    div_le_div_of_nonneg_left hp.width_pos.le hp'.gcr_pos hgcr
  have hjj : r = j + 1 ∨ j = r + 1 := by
    by_cases hs : LooksLeft (fitStep p u) .back
    · exact Or.inl (hj.1 hs)
    · exact Or.inr (hj.2 hs).1
  have hfull : ∀ q : ArrayParams, Physical q (fitStep q u).rot.deg → ((fitStep q u).row j).full.Ends
      (tPt (rowCenter q j) q.width (fitStep q u).rot.deg 0)
      (tPt (rowCenter q j) q.width (fitStep q u).rot.deg q.width) := fun q hq => by
    refine ⟨?_, full_row_t j⟩
    rw [tPt_y, tPt_y]
    nlinarith [mul_nonneg hq.width.le hq.upY_nonneg]
  obtain ⟨a1, a2⟩ := C84_fast p u hp hu r k sh ha hl htilt lo hi hends j hj _ _ (hfull p hph)
  obtain ⟨b1, b2⟩ := C84_fast p' u hp' hu' r k' sh' ha' hl' htilt lo' hi' hends' j hj _ _
    (hfull p' hph')
  change near.toSky = _ at a1
  change far.toSky = _ at b1
  change near.toGndTotal = _ at a2
  change far.toGndTotal = _ at b2
  have hl0 := TOL_pos.trans hl
  have hrow := (C28_complete p (fitStep p u) r ((fitStep p u).coords (.pv r .back k sh))).1
  have hrow' := (C28_complete p' (fitStep p' u) r ((fitStep p' u).coords (.pv r .back k' sh'))).1
  change near.toGndTotal + near.toPvrowTotal + near.toSky = 1 at hrow
  change far.toGndTotal + far.toPvrowTotal + far.toSky = 1 at hrow'
  have key : near.toSky ≤ far.toSky ∧ near.toGndTotal ≤ far.toGndTotal := by
    have hxy : x < y := by
      have hL2 : lengthAt p u (.pv r .back k sh) = y - x := hL
      linarith
    have hw := hph.width
    have hd : ∀ (q : ArrayParams) (w τ : ℝ),
        distPt (tPt (rowCenter q j) q.width (fitStep p u).rot.deg w)
          (tPt (rowCenter q r) q.width (fitStep p u).rot.deg τ)
        = distPt ⟨-q.distance, 0⟩ ⟨(τ - w) * ((if r = j + 1 then 1 else -1) *
            upX true (fitStep p u).rot.deg), (τ - w) * upY (fitStep p u).rot.deg⟩ := fun q w τ => by
      obtain ⟨σ, hσ, h⟩ := dist_rows q (fitStep p u).rot.deg w τ hjj
      rw [h, hσ]
    rw [a1, a2, b1, b2, hLL]
    rw [hrr] at e1' e2' ⊢
    have hww : p'.width = p.width := rfl
    constructor
    · refine div_le_div_of_nonneg_right ?_ (by linarith)
      rw [e1, e2, e1', e2', hww, hd, hd, hd p', hd p']
      have hf : x - p.width < 0 := by linarith
      have := apart_scaled (f := x - p.width) (m := y - p.width)
        (a := (if r = j + 1 then 1 else -1) * upX true (fitStep p u).rot.deg)
        (b := upY (fitStep p u).rot.deg) hD.le hDD hf.ne (div_nonneg_of_nonpos (by linarith) hf.le)
        ((div_le_one_of_neg hf).2 (by linarith))
      linarith
    · refine div_le_div_of_nonneg_right ?_ (by linarith)
      rw [e1, e2, e1', e2', hd, hd, hd p', hd p']
      have hf : 0 < y - 0 := by linarith
      have := apart_scaled (f := y - 0) (m := x - 0)
        (a := (if r = j + 1 then 1 else -1) * upX true (fitStep p u).rot.deg)
        (b := upY (fitStep p u).rot.deg) hD.le hDD hf.ne' (div_nonneg (by linarith) hf.le)
        ((div_le_one hf).2 (by linarith))
      linarith
  exact ⟨key.1, key.2, by linarith [key.1, key.2]⟩

/-! ## An example -/

/-- The two rows of `vertArray`, farther apart. -/
noncomputable def wideArray : ArrayParams := { vertArray with gcr := 1 / 3 }

theorem wide_interrow : interrowShading wideArray (3 * Real.pi / 4) 90 = (0, 0) := by
  have hb : deg2rad (90 - 90 + rad2deg (3 * Real.pi / 4)) = Real.pi - Real.pi / 4 := by
    unfold deg2rad rad2deg
    have := Real.pi_ne_zero
    field_simp
    ring
  have hd : shadingDelta wideArray.distance (3 * Real.pi / 4) 90 = 6 := by
    unfold shadingDelta
    simp only [hb]
    rw [Real.tan_pi_sub, Real.tan_pi_div_four]
    have : deg2rad (90 - 90) = 0 := by simp [deg2rad]
    rw [this]
    norm_num [ArrayParams.distance, wideArray, vertArray]
  unfold interrowShading
  simp only [hd]
  norm_num [wideArray, vertArray]

theorem wide_physicalStep : PhysicalStep wideArray vertStep where
  tilt_nonneg := vert_physicalStep.tilt_nonneg
  tilt_lt := vert_physicalStep.tilt_lt
  above := vert_physicalStep.above
  sun_y := vert_physicalStep.sun_y
  sun_front := vert_physicalStep.sun_front
  shade_ok := by
    change ShadeOk wideArray (rotationFromTiltAzimuth vertStep.surfaceAzimuth vertArray.axisAzimuth
      vertStep.surfaceTilt).deg (solar2dVector vertStep.solarZenith vertStep.solarAzimuth
      vertArray.axisAzimuth)
    rw [vert_sun, vert_rot]
    have : 0 < Real.sqrt 2 := by positivity
    right; left
    simp only [frontDotSun, sind_90, cosd_90]
    norm_num [wideArray, vertArray, abs_of_pos this]

theorem vert_coords_low : (fitStep vertArray vertStep).coords (.pv 0 .back 0 false)
    = ⟨⟨0, 1 / 2⟩, ⟨0, 3 / 2⟩⟩ := by
  rw [vert_fit, coords_pv_t (by simp [vertArray, ArrayParams.nSeg, ArrayParams.nBack]) false
    (by norm_num [vertArray]) (by norm_num) (by norm_num), if_neg (by norm_num)]
  unfold pvIv
  simp only [vert_shade]
  simp only [tPt, rowPt, cosd_90, sind_90, rowCenter]
  norm_num [vertArray, ArrayParams.distance, X_ORIGIN, Y_GROUND, tIv, tSeg, ArrayParams.nSeg,
    ArrayParams.nBack]

theorem wide_coords : (fitStep wideArray vertStep).coords (.pv 0 .back 1 false)
    = ⟨⟨0, 3 / 2⟩, ⟨0, 5 / 2⟩⟩ := by
  have hf : fitStep wideArray vertStep
      = fitGeom wideArray ⟨90, false⟩ ⟨-(Real.sqrt 2 / 2), Real.sqrt 2 / 2⟩ := by
    unfold fitStep
    rw [← vert_rot, ← vert_sun]; rfl
  rw [hf, coords_pv_t (by simp [wideArray, vertArray, ArrayParams.nSeg, ArrayParams.nBack]) false
    (by norm_num [wideArray, vertArray]) (by norm_num) (by norm_num), if_neg (by norm_num)]
  have hs : sideShade wideArray (arctan2 (Real.sqrt 2 / 2) (-(Real.sqrt 2 / 2))) 90 0 .back = 0 := by
    unfold sideShade rowShadedLengths
    rw [vert_alpha, wide_interrow]
    simp
  unfold pvIv
  simp only [hs]
  simp only [tPt, rowPt, cosd_90, sind_90, rowCenter]
  norm_num [wideArray, vertArray, ArrayParams.distance, X_ORIGIN, Y_GROUND, tIv, tSeg,
    ArrayParams.nSeg, ArrayParams.nBack]

theorem vert_looks_back : ¬ LooksLeft (fitStep vertArray vertStep) .back := by
  simp [LooksLeft, vert_deg]

/-- The same rows with four segments on every back. -/
noncomputable def quarterArray : ArrayParams := { vertArray with cut := fun _ => { back := some 4 } }

theorem quarter_physicalStep : PhysicalStep quarterArray vertStep :=
  ⟨vert_physicalStep.tilt_nonneg, vert_physicalStep.tilt_lt, vert_physicalStep.above,
    vert_physicalStep.sun_y, vert_physicalStep.sun_front, vert_physicalStep.shade_ok⟩

theorem quarter_fit : fitStep quarterArray vertStep
    = fitGeom quarterArray ⟨90, false⟩ ⟨-(Real.sqrt 2 / 2), Real.sqrt 2 / 2⟩ := by
  unfold fitStep
  rw [← vert_rot, ← vert_sun]; rfl

theorem quarter_shade (i : ℕ) (s : RowSide) :
    sideShade quarterArray (arctan2 (Real.sqrt 2 / 2) (-(Real.sqrt 2 / 2))) 90 i s = 0 :=
  vert_shade i s

theorem quarter_coords (r k : ℕ) (hk : k < 4) :
    (fitStep quarterArray vertStep).coords (.pv r .back k false)
      = ⟨⟨5 * r, 1 / 2 + k / 2⟩, ⟨5 * r, 1 + k / 2⟩⟩ := by
  rw [quarter_fit, coords_pv_t (by simpa [quarterArray, ArrayParams.nSeg, ArrayParams.nBack] using hk)
    false (by norm_num [quarterArray, vertArray]) (by norm_num) (by norm_num), if_neg (by norm_num)]
  unfold pvIv
  simp only [quarter_shade]
  simp only [tPt, rowPt, cosd_90, sind_90, rowCenter]
  interval_cases k <;>
  norm_num [quarterArray, vertArray, ArrayParams.distance, X_ORIGIN, Y_GROUND, tIv, tSeg,
    ArrayParams.nSeg, ArrayParams.nBack] <;> ring

theorem quarter_mem (r k : ℕ) (hr : r < 2) (hk : k < 4) :
    SurfRef.pv r .back k false ∈ surfaces quarterArray :=
  mem_surfaces.2 (mem_allRefs_pv.2 (by
    refine ⟨hr, ?_⟩
    simpa [quarterArray, ArrayParams.nSeg, ArrayParams.nBack] using hk))

theorem quarter_len (r k : ℕ) (hk : k < 4) :
    lengthAt quarterArray vertStep (.pv r .back k false) = 1 / 2 := by
  unfold lengthAt
  rw [quarter_coords r k hk]
  have : (1 + (k : ℝ) / 2 - (1 / 2 + (k : ℝ) / 2)) = 1 / 2 := by ring
  unfold Line.length
  simp only [this, sub_self]
  rw [show ((1 / 2 : ℝ) ^ 2 + 0 ^ 2) = (1 / 2) ^ 2 by ring, Real.sqrt_sq (by norm_num)]

theorem quarter_lengths : ∀ a ∈ surfaces quarterArray,
    lengthAt quarterArray vertStep a = 0 ∨ lengthAt quarterArray vertStep a > TOL := by
  intro a hm
  match a with
  | .gnd sh e z =>
    have h1 := mem_allRefs_gnd.1 (mem_surfaces.1 hm)
    have h2 : SurfRef.gnd sh e z ∈ allRefs vertArray := mem_allRefs_gnd.2 h1
    have h3 : lengthAt quarterArray vertStep (.gnd sh e z) = lengthAt vertArray vertStep (.gnd sh e z) :=
      by cases sh <;> rfl
    rw [h3]
    exact vert_lengths (.gnd sh e z) (mem_surfaces.2 h2)
  | .pv i s k sh =>
    obtain ⟨hi, hk⟩ := mem_allRefs_pv.1 (mem_surfaces.1 hm)
    unfold lengthAt
    rw [quarter_fit, length_pv hk sh (by norm_num [quarterArray, vertArray]) (by norm_num)
      (by norm_num)]
    unfold pvIv
    simp only [quarter_shade]
    cases s <;>
      simp [quarterArray, vertArray, ArrayParams.nSeg, ArrayParams.nBack, ArrayParams.nFront] at hk <;>
      first | subst hk | interval_cases k
    all_goals cases sh <;>
      simp [tIv, tSeg, TOL, quarterArray, vertArray, ArrayParams.nSeg, ArrayParams.nBack,
        ArrayParams.nFront] <;> norm_num

/-- The hypotheses of C85 can be met: backs of two vertical rows, divided in two or four; rows 5 m and
6 m apart. -/
theorem C85_demo (t : Fin 3) :
    let g := fitStep vertArray vertStep
    let low := fastVF vertArray g (0 : ℕ) (g.coords (.pv 0 .back 0 false))
    let high := fastVF vertArray g (0 : ℕ) (g.coords (.pv 0 .back 1 false))
    let wide := fastVF wideArray (fitStep wideArray vertStep) (0 : ℕ)
      ((fitStep wideArray vertStep).coords (.pv 0 .back 1 false))
    (low.toSky = (1 + (Real.sqrt 26 - Real.sqrt 29)) / 2 ∧
    high.toSky = (1 + (5 - Real.sqrt 26)) / 2) ∧
    (low.toSky ≤ high.toSky ∧ high.toGndTotal ≤ low.toGndTotal) ∧
    (high.toSky ≤ wide.toSky ∧ high.toGndTotal ≤ wide.toGndTotal) ∧
    let F := tsVfMatrix quarterArray (fun _ => vertStep) t
    vfToSky quarterArray F (.pv 1 .back 0 false) ≤ vfToSky quarterArray F (.pv 1 .back 2 false) ∧
    vfToSky quarterArray F (.pv 0 .back 1 false) ≤ vfToSky quarterArray F (.pv 0 .back 2 false) := by
  intro g low high wide
  have el : (g.coords (.pv 0 .back 0 false)).Ends ⟨0, 1 / 2⟩ ⟨0, 3 / 2⟩ :=
    ⟨by norm_num, Or.inl vert_coords_low⟩
  have eh : (g.coords (.pv 0 .back 1 false)).Ends ⟨0, 3 / 2⟩ ⟨0, 5 / 2⟩ :=
    ⟨by norm_num, Or.inl vert_coords_left⟩
  have ew : ((fitStep wideArray vertStep).coords (.pv 0 .back 1 false)).Ends ⟨0, 3 / 2⟩ ⟨0, 5 / 2⟩ :=
    ⟨by norm_num, Or.inl wide_coords⟩
  have hj : (LooksLeft (fitStep vertArray vertStep) .back → 0 = 1 + 1) ∧
      (¬ LooksLeft (fitStep vertArray vertStep) .back → 1 = 0 + 1 ∧ 1 < vertArray.nRows) :=
    ⟨fun h => absurd h vert_looks_back, fun _ => ⟨rfl, by norm_num [vertArray]⟩⟩
  have hOT : ((fitStep vertArray vertStep).row 1).full.Ends ⟨5, 1 / 2⟩ ⟨5, 5 / 2⟩ :=
    ⟨by norm_num, Or.inl (by simpa using vert_full 1)⟩
  have hl : ∀ k, k < 2 → lengthAt vertArray vertStep (.pv 0 .back k false) > TOL := fun k hk => by
    rw [vert_len k hk]; norm_num [TOL]
  have ht : vertStep.surfaceTilt ≠ 0 := by norm_num [vertStep]
  have hlw : lengthAt wideArray vertStep (.pv 0 .back 1 false) > TOL := by
    unfold lengthAt; rw [wide_coords]; norm_num [Line.length, TOL]
  have hq : ∀ r k, k < 4 → ((fitStep quarterArray vertStep).coords (.pv r .back k false)).Ends
      ⟨5 * r, 1 / 2 + k / 2⟩ ⟨5 * r, 1 + k / 2⟩ := fun r k hk =>
    ⟨by simp only; linarith, Or.inl (quarter_coords r k hk)⟩
  have hql : ∀ r k, k < 4 → lengthAt quarterArray vertStep (.pv r .back k false) > TOL :=
    fun r k hk => by rw [quarter_len r k hk]; norm_num [TOL]
  have hc0 : Aligned ⟨0, 0⟩ ((fitStep vertArray vertStep).row 0).full.b1
      ((fitStep vertArray vertStep).row 0).full.b2 := by simpa using vert_cut_aligned 0
  have hc1 : Aligned ⟨5, 0⟩ ((fitStep vertArray vertStep).row 1).full.b1
      ((fitStep vertArray vertStep).row 1).full.b2 := by simpa using vert_cut_aligned 1
  refine ⟨⟨?_, ?_⟩, ?_, ?_, ?_, ?_⟩
  · have := (C84_fast vertArray vertStep vert_physicalArray vert_physicalStep 0 0 false
      (vert_mem 0 (by norm_num) false) (hl 0 (by norm_num)) ht _ _ el 1 hj _ _ hOT).1
    simp only [vert_len 0 (by norm_num)] at this
    change low.toSky = _ at this
    rw [this]
    norm_num [distPt]
  · have := (C84_fast vertArray vertStep vert_physicalArray vert_physicalStep 0 1 false
      (vert_mem 1 (by norm_num) false) (hl 1 (by norm_num)) ht _ _ eh 1 hj _ _ hOT).1
    simp only [vert_len 1 (by norm_num)] at this
    change high.toSky = _ at this
    rw [this]
    have h25 : Real.sqrt 25 = 5 := by
      rw [show (25 : ℝ) = 5 ^ 2 by norm_num]; exact Real.sqrt_sq (by norm_num)
    norm_num [distPt, h25]
  · exact C85_higher_fast vertArray 0 .back 0 1 false false _ _ _ _ rfl vertStep vert_physicalArray
      vert_physicalStep (vert_mem 0 (by norm_num) false) (vert_mem 1 (by norm_num) false)
      (hl 0 (by norm_num)) (hl 1 (by norm_num)) ht el eh le_rfl 1 hj
  · have := C85_apart vertArray (1 / 3) (by norm_num [vertArray]) vertStep vert_physicalArray
      ⟨vert_physicalArray.width_pos, by norm_num⟩ vert_physicalStep wide_physicalStep 0 1 1 false false
      (vert_mem 1 (by norm_num) false) (vert_mem 1 (by norm_num) false) (hl 1 (by norm_num)) hlw ht
      _ _ _ _ eh ew rfl rfl 1 hj
    exact ⟨this.1, this.2.1⟩
  · exact (C85_higher_edge quarterArray 1 .back 0 2 false false _ _ _ _
      (quarter_mem 1 0 (by norm_num) (by norm_num)) (quarter_mem 1 2 (by norm_num) (by norm_num))
      (fun _ => vertStep) t ⟨vert_physicalArray.1, vert_physicalArray.2⟩ quarter_physicalStep quarter_lengths
      (hql 1 0 (by norm_num)) (hql 1 2 (by norm_num)) ht 5 (by norm_num [MIN_X, MAX_X])
      hc1 (hq 1 0 (by norm_num)) (hq 1 2 (by norm_num))
      (by norm_num) ⟨fun h => absurd h vert_looks_back, fun _ => rfl⟩).1
  · refine C85_higher_inner quarterArray 0 .back 1 2 false false _ _ _ _
      (quarter_mem 0 1 (by norm_num) (by norm_num)) (quarter_mem 0 2 (by norm_num) (by norm_num))
      (fun _ => vertStep) t ⟨vert_physicalArray.1, vert_physicalArray.2⟩ quarter_physicalStep quarter_lengths
      (hql 0 1 (by norm_num)) (hql 0 2 (by norm_num)) ht 0 (by norm_num [MIN_X, MAX_X])
      hc0 (hq 0 1 (by norm_num)) (hq 0 2 (by norm_num))
      (by norm_num) 1 hj (by norm_num [quarterArray, ArrayParams.nFront, ArrayParams.nBack])
      ⟨_, _, hOT, ⟨10, by norm_num [MIN_X, MAX_X], by norm_num [Aligned]⟩,
        ⟨15 / 2, by norm_num [MIN_X, MAX_X], by norm_num [Aligned]⟩⟩

end PVF

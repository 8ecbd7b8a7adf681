import Verif.Spec.Principles
import Verif.Spec.Through
import Verif.Props.RayView
import Verif.Props.DirectLight
import Verif.Props.Through
import Verif.Props.Horizon
import Verif.Props.Perez

/-! # C91: full mode from first principles -/

namespace PVF

variable {ι : Type*} [Fintype ι]

/-! ## Which points see the sun -/

/-- With the sun up, only rows can hide it. -/
theorem escapes_sun {p : ArrayParams} {g : StepGeom} {X : Pt} (hy : 0 < g.sun.y) (hX : 0 ≤ X.y) :
    Escapes (g.Solid p) X g.sun ↔ ¬ ∃ j < p.nRows, SunRayHits g.sun X (g.row j).full := by
  constructor
  · rintro h ⟨j, hj, l, hl, hs⟩
    exact h l hl (Or.inl ⟨j, hj, hs⟩)
  · rintro h l hl (⟨j, hj, hs⟩ | ⟨t, -, -, ht⟩)
    · exact h ⟨j, hj, l, hl, hs⟩
    · have := congrArg Pt.y ht
      simp only [along, lerp] at this
      have := mul_pos hl hy
      linarith

/-- Inner points of a ground surface see the sun exactly if it is not a shaded one. -/
theorem ground_sees_sun {p : ArrayParams} {u : StepIn} (hp : PhysicalArray p)
    (hu : PhysicalStep p u) (hy : 0 < (fitStep p u).sun.y) {sh : Bool} {e z : ℕ}
    (ha : SurfRef.gnd sh e z ∈ surfaces p) (hl : lengthAt p u (.gnd sh e z) ≠ 0) {s : ℝ}
    (hs0 : 0 < s) (hs1 : s < 1) :
    Escapes ((fitStep p u).Solid p) (lerp ((fitStep p u).coords (.gnd sh e z)).b1
      ((fitStep p u).coords (.gnd sh e z)).b2 s) (fitStep p u).sun ↔ sh = false := by
  set g := fitStep p u with hg
  obtain ⟨-, -, c3, -, c5⟩ := C17_tiling p u hp.width_pos hp.gcr_pos hu.sun_y hu.sun_front
    hu.shade_ok
  have hmem : SurfRef.gnd sh e z ∈ groundRefs p :=
    mem_groundRefs.2 ⟨sh, e, z, rfl, mem_allRefs_gnd.1 (mem_surfaces.1 ha)⟩
  obtain ⟨y1, y2, x0, x12, x3⟩ := c3 _ hmem
  have hlt : (g.coords (.gnd sh e z)).b1.x < (g.coords (.gnd sh e z)).b2.x := by
    refine lt_of_le_of_ne x12 fun h => hl ?_
    unfold lengthAt Line.length
    rw [← hg, y1, y2, h]; simp
  set A := g.coords (.gnd sh e z) with hA
  set x := A.b1.x + s * (A.b2.x - A.b1.x) with hx
  have hX : lerp A.b1 A.b2 s = ⟨x, 0⟩ := by
    unfold lerp; rw [y1, y2]; simp [hx]
  have hx1 : A.b1.x < x := by rw [hx]; nlinarith
  have hx2 : x < A.b2.x := by rw [hx]; nlinarith
  rw [hX, escapes_sun hy le_rfl]
  have hray := C18_ray_tracing p u x hp.width_pos hp.gcr_pos (by linarith) (by linarith) hy
    hu.sun_front (physical_of hp hu).above
  rw [← hg] at hray
  rw [← hray]
  cases sh
  · simp only [iff_true]
    rintro ⟨e', z', hm, h12, h1, h2⟩
    set B := g.coords (.gnd true e' z')
    have hd := c5 _ hmem _ hm (by simp) ((max A.b1.x B.b1.x + min A.b2.x B.b2.x) / 2)
    apply hd
    have e1 : max A.b1.x B.b1.x < min A.b2.x B.b2.x := by
      rw [max_lt_iff, lt_min_iff, lt_min_iff]
      exact ⟨⟨hlt, by linarith⟩, by linarith, h12⟩
    have f1 := le_max_left A.b1.x B.b1.x
    have f2 := le_max_right A.b1.x B.b1.x
    have f3 := min_le_left A.b2.x B.b2.x
    have f4 := min_le_right A.b2.x B.b2.x
    exact ⟨by linarith, by linarith, by linarith, by linarith⟩
  · simp only [Bool.true_eq_false, iff_false, not_not]
    exact ⟨e, z, hmem, hlt, hx1.le, hx2.le⟩

/-- Inner points of a surface of a row on the side facing the sun see the sun exactly if it is not a
shaded one. -/
theorem row_sees_sun {p : ArrayParams} {u : StepIn} (hp : PhysicalArray p)
    (hu : PhysicalStep p u) (hy : 0 < (fitStep p u).sun.y) {i k : ℕ} {sd : RowSide} {sh : Bool}
    (ha : SurfRef.pv i sd k sh ∈ surfaces p) (hl : lengthAt p u (.pv i sd k sh) ≠ 0)
    (hsun : FacesSun (fitStep p u).rot.deg (fitStep p u).sun sd) {s : ℝ}
    (hs0 : 0 < s) (hs1 : s < 1) :
    Escapes ((fitStep p u).Solid p) (lerp ((fitStep p u).coords (.pv i sd k sh)).b1
      ((fitStep p u).coords (.pv i sd k sh)).b2 s) (fitStep p u).sun ↔ sh = false := by
  set g := fitStep p u with hg
  obtain ⟨hi, hk⟩ := mem_allRefs_pv.1 (mem_surfaces.1 ha)
  have hph := physical_of hp hu
  have hw := hp.width_pos
  have h0 : -180 < g.rot.deg := hph.lo
  have h1 : g.rot.deg < 180 := hph.hi
  have hF : frontDotSun g.rot.deg g.sun ≠ 0 := hu.sun_front
  have hc : g.coords (.pv i sd k sh) = _ := coords_pv_t (rot := g.rot) (sun := g.sun) hk sh hw.le h0 h1
  have hlen := length_pv (rot := g.rot) (sun := g.sun) hk sh hw.le h0 h1
  obtain ⟨b0, b1, b2⟩ := pv_iv_bounds (rot := g.rot) (sun := g.sun) hk sh hw.le
  set lo := (pvIv p g.rot g.sun i sd k sh).1 with hlo
  set hi' := (pvIv p g.rot g.sun i sd k sh).2 with hhi
  have hlt : lo < hi' := by
    refine lt_of_le_of_ne b1 fun h => hl ?_
    change (g.coords _).length = 0
    change (g.coords _).length = _ at hlen
    rw [hlen, h, sub_self]
  -- the point
  obtain ⟨x, hX, hx0, hx1⟩ : ∃ x, lerp (g.coords (.pv i sd k sh)).b1 (g.coords (.pv i sd k sh)).b2 s
      = tPt (rowCenter p i) p.width g.rot.deg x ∧ lo < x ∧ x < hi' := by
    rw [hc]
    split_ifs
    · exact ⟨_, lerp_tPt _ _ _ _ _ _, by nlinarith, by nlinarith⟩
    · exact ⟨_, lerp_tPt _ _ _ _ _ _, by nlinarith, by nlinarith⟩
  have hyX : 0 ≤ (tPt (rowCenter p i) p.width g.rot.deg x).y := by
    rw [tPt_y]
    have e1 := hph.lowY_pos
    have e2 := upY_nonneg hph.lo hph.hi
    have : 0 ≤ x * upY g.rot.deg := mul_nonneg (by linarith) e2
    have e1' : 0 < lowY p g.rot.deg := e1
    linarith
  rw [hX, escapes_sun hy hyX]
  by_cases hr : g.rot.deg = 0
  · have hrow : ∀ j, (g.row j).full = fullRowCoords (rowCenter p j) p.width g.rot.deg := fun j => rfl
    have htilt : u.surfaceTilt = 0 := by
      by_contra hne
      exact (rotation_range (lt_of_le_of_ne hu.tilt_nonneg (Ne.symm hne)) hu.tilt_lt).2.2 hr
    have hno : ¬ ∃ j < p.nRows, SunRayHits g.sun (tPt (rowCenter p i) p.width g.rot.deg x)
        (g.row j).full := by
      rintro ⟨j, -, hj⟩
      have h := (C23_flat p u i j (1 - x / p.width) hw htilt hy).1
      apply h
      rw [← hg, hrow, lerp_full]
      have : tPt (rowCenter p i) p.width g.rot.deg x
          = rowPt (rowCenter p i) g.rot.deg (-(p.width / 2) + (1 - x / p.width) * p.width) := by
        unfold tPt
        rw [if_neg (by rw [hr]; exact lt_irrefl _)]
        congr 1; field_simp; ring
      rw [← this]; exact hj
    simp only [hno, not_false_eq_true, true_iff]
    cases sh
    · rfl
    · exfalso
      apply hlt.ne
      rw [hlo, hhi]; simp [pvIv, tIv, hr]
  · have hd : 0 < p.distance := hph.distance
    have hss : sunnySide g.rot.deg g.sun = sd := by
      cases sd
      · simp only [FacesSun] at hsun; simp [sunnySide, hsun]
      · simp only [FacesSun] at hsun; simp [sunnySide, not_lt.2 hsun.le]
    have hLe := sideShade_eq hw hd hF h0 h1 hr hy hi
    rw [hss] at hLe
    set L := sideShade p (arctan2 g.sun.y g.sun.x) g.rot.deg i sd with hL
    have hray := fun j => ray_row_iff (p := p) (i := i) (j := j) hw hd hF h0 h1 hr hy
      (x := x) (by linarith)
    simp only at hray
    have hrow : ∀ j, (g.row j).full = fullRowCoords (rowCenter p j) p.width g.rot.deg := fun j => rfl
    have hq : sind g.rot.deg / frontDotSun g.rot.deg g.sun ≠ 0 := by
      apply div_ne_zero _ hF
      rcases lt_or_gt_of_ne hr with h | h
      · exact (sind_neg_of_neg h h0).ne
      · exact (sind_pos h h1).ne'
    have hδ0 : 0 ≤ |p.distance * g.sun.y / frontDotSun g.rot.deg g.sun| := abs_nonneg _
    have hcl : (∃ j < p.nRows, SunRayHits g.sun (tPt (rowCenter p i) p.width g.rot.deg x)
        (g.row j).full) ↔
        (if 0 < sind g.rot.deg / frontDotSun g.rot.deg g.sun then 0 < i else i + 1 < p.nRows) ∧
          x + |p.distance * g.sun.y / frontDotSun g.rot.deg g.sun| ≤ p.width := by
      simp only [hrow, (hray _).1]
      exact exists_row_iff hi hq hδ0 (· ≤ ·) (fun h h' => le_trans h h') x p.width
    rw [hcl]
    have hiv : (pvIv p g.rot g.sun i sd k sh) = tIv p.width g.rot.deg (p.nSeg i sd) L k sh := rfl
    simp only [tIv, hr, if_false] at hiv
    have hbt := tSeg_le hw.le g.rot.deg (p.nSeg i sd) k
    set a := (tSeg p.width g.rot.deg (p.nSeg i sd) k).1
    set b := (tSeg p.width g.rot.deg (p.nSeg i sd) k).2
    have hbw : b ≤ p.width := (tSeg_bounds hw.le g.rot.deg hk).2
    set δ := |p.distance * g.sun.y / frontDotSun g.rot.deg g.sun|
    cases sh
    · simp only [iff_true]
      rintro ⟨hnb, hle⟩
      rw [if_pos hnb] at hLe
      simp only [Bool.false_eq_true, if_false] at hiv
      rw [hlo, hiv, max_lt_iff, min_lt_iff] at hx0
      rw [hhi, hiv] at hx1
      rcases hx0.2 with h | h
      · exact lt_asymm h hx1
      · rw [hLe, max_lt_iff] at h; linarith [h.2]
    · simp only [Bool.true_eq_false, iff_false, not_not]
      simp only [if_true] at hiv
      have hxp : 0 < x := lt_of_le_of_lt b0 hx0
      rw [hlo, hiv] at hx0
      rw [hhi, hiv, lt_max_iff, lt_min_iff] at hx1
      rcases hx1 with h | h
      · exact absurd hx0 (not_lt.2 h.le)
      · have hL0 : x < L := h.2
        rw [hLe] at hL0
        by_cases hnb : (if 0 < sind g.rot.deg / frontDotSun g.rot.deg g.sun then 0 < i
          else i + 1 < p.nRows)
        · rw [if_pos hnb] at hL0
          refine ⟨hnb, ?_⟩
          rw [lt_max_iff] at hL0
          rcases hL0 with h' | h' <;> linarith
        · rw [if_neg hnb] at hL0
          linarith

/-- Surfaces that face the sun. -/
theorem outward_dot {rot : ℝ} {sun : Pt} (a : SurfRef) :
    (outward rot a).x * sun.x + (outward rot a).y * sun.y = match a.kind with
      | .ground => sun.y
      | .front => frontDotSun rot sun
      | .back => - frontDotSun rot sun := by
  match a with
  | .gnd _ _ _ => simp [outward, SurfRef.kind]
  | .pv _ .front _ _ => simp [outward, SurfRef.kind, frontDotSun]; ring
  | .pv _ .back _ _ => simp [outward, SurfRef.kind, frontDotSun]; ring

/-- C91: an inner point of a surface that faces the sun sees the sun exactly if the surface is not
one of those that the package calls shaded. -/
theorem C91_lit (p : ArrayParams) (u : StepIn) (hp : PhysicalArray p) (hu : PhysicalStep p u) :
    let g := fitStep p u
    0 < g.sun.y → ∀ a ∈ surfaces p, (g.coords a).length ≠ 0 →
    0 < (outward g.rot.deg a).x * g.sun.x + (outward g.rot.deg a).y * g.sun.y →
    ∀ s, 0 < s → s < 1 →
    (Escapes (g.Solid p) (lerp (g.coords a).b1 (g.coords a).b2 s) g.sun ↔ a.isShaded = false) := by
  intro g hy a ha hl hf s hs0 hs1
  match a with
  | .gnd sh e z => exact ground_sees_sun hp hu hy ha hl hs0 hs1
  | .pv i .front k sh =>
    rw [outward_dot] at hf
    exact row_sees_sun hp hu hy ha hl hf hs0 hs1
  | .pv i .back k sh =>
    rw [outward_dot] at hf
    have hf' : 0 < - frontDotSun g.rot.deg g.sun := hf
    exact row_sees_sun hp hu hy ha hl (show frontDotSun g.rot.deg g.sun < 0 by linarith) hs0 hs1

theorem integral_unit_const {f : ℝ → ℝ} {c : ℝ} (h : ∀ s, 0 < s → s < 1 → f s = c) :
    ∫ s in (0:ℝ)..1, f s = c := by
  rw [intervalIntegral.integral_of_le zero_le_one, MeasureTheory.integral_Ioc_eq_integral_Ioo,
    MeasureTheory.setIntegral_congr_fun (g := fun _ => c) measurableSet_Ioo
      (fun s hs => h s hs.1 hs.2)]
  simp

theorem sunlight_of_shaded {p : ArrayParams} {u : StepIn} (hp : PhysicalArray p)
    (hu : PhysicalStep p u) (hy : 0 < (fitStep p u).sun.y) {a : SurfRef} (ha : a ∈ surfaces p)
    (hl : lengthAt p u a ≠ 0) (dni share : ℝ) :
    sunlight p (fitStep p u) dni share a
      = dni * max 0 ((outward (fitStep p u).rot.deg a).x * (fitStep p u).sun.x
          + (outward (fitStep p u).rot.deg a).y * (fitStep p u).sun.y)
        * if a.isShaded then share else 1 := by
  unfold sunlight
  rcases le_or_gt ((outward (fitStep p u).rot.deg a).x * (fitStep p u).sun.x
      + (outward (fitStep p u).rot.deg a).y * (fitStep p u).sun.y) 0 with h | h
  · rw [max_eq_left h]; simp
  · congr 1
    refine integral_unit_const fun s hs0 hs1 => ?_
    have := C91_lit p u hp hu hy a ha hl h s hs0 hs1
    simp only [this]
    cases a.isShaded <;> simp

/-- The irradiance model gives a surface the light that comes straight from the sun. -/
theorem sunlight_eq {p : ArrayParams} {u : StepIn} {q : IrrParams} {v : IrrIn}
    (hp : PhysicalArray p) (hu : PhysicalStep p u) (hv : SameStep u v) (hz0 : 0 ≤ u.solarZenith)
    (hz1 : u.solarZenith < 90) (haz : cosd (u.surfaceAzimuth - p.axisAzimuth) = 0) {a : SurfRef}
    (ha : a ∈ surfaces p) (hl : lengthAt p u a ≠ 0) :
    sunlight p (fitStep p u) v.dni (openShare q) a = (directCats q v).get a := by
  have hy : 0 < (fitStep p u).sun.y := by
    change 0 < cosd u.solarZenith
    unfold cosd deg2rad
    apply Real.cos_pos_of_mem_Ioo
    constructor <;> nlinarith [Real.pi_pos]
  have hinc := incidence_step hu hv hz0 (by linarith) haz
  rw [sunlight_of_shaded hp hu hy ha hl, outward_dot]
  have hg : (directCats q v).groundIllum = v.dni * (fitStep p u).sun.y := by
    change v.dni * cosd v.solarZenith = v.dni * cosd u.solarZenith
    rw [hv.zenith]
  have hf : (directCats q v).frontIllum = v.dni * max 0 (frontDotSun (fitStep p u).rot.deg
      (fitStep p u).sun) := by rw [direct_front, hinc]
  have hb : (directCats q v).backIllum = v.dni * max 0 (-frontDotSun (fitStep p u).rot.deg
      (fitStep p u).sun) := by rw [direct_back, hinc]
  match a with
  | .gnd false _ _ => simp [SurfRef.kind, SurfRef.isShaded, Cats.get, hg, max_eq_right hy.le]
  | .gnd true _ _ =>
    have : (directCats q v).groundShaded = openShare q * (directCats q v).groundIllum :=
      throughModules_eq _ _
    simp [SurfRef.kind, SurfRef.isShaded, Cats.get, this, hg, max_eq_right hy.le]; ring
  | .pv _ .front _ false => simp [SurfRef.kind, SurfRef.isShaded, Cats.get, hf]
  | .pv _ .front _ true =>
    have : (directCats q v).frontShaded = openShare q * (directCats q v).frontIllum :=
      throughModules_eq _ _
    simp [SurfRef.kind, SurfRef.isShaded, Cats.get, this, hf]; ring
  | .pv _ .back _ false => simp [SurfRef.kind, SurfRef.isShaded, Cats.get, hb]
  | .pv _ .back _ true =>
    have : (directCats q v).backShaded = openShare q * (directCats q v).backIllum :=
      throughModules_eq _ _
    simp [SurfRef.kind, SurfRef.isShaded, Cats.get, this, hb]; ring

/-! ## The balance of light -/

theorem rayView_nonneg {p : ArrayParams} {u : StepIn} (h : Traceable p u)
    {a b : SurfRef} (ha : a ∈ surfaces p) (hb : b ∈ surfaces p) (hla : TOL < lengthAt p u a) :
    0 ≤ rayView p (fitStep p u) a b := by
  rw [← C51_view_factor_by_rays p (fun _ : Unit => u) () h.array h.step h.flat ha hb hla
    (h.len b hb)]
  exact (C02_viewFactorsOk p (fun _ : Unit => u) () h.array h.step).nonneg a ha b hb

/-- Any solution of the balance of full mode is the light that arrives, seen by rays, and no other
light is. -/
theorem balance_by_rays {p : ArrayParams} {u : ι → StepIn} {t : ι} {e e' rho : SurfRef → ℝ}
    {sky : ℝ} {q0 qinc : SurfRef → ℝ} (hT : Traceable p (u t))
    (hB : RadiosityBalance p (tsVfMatrix p u t) e rho sky q0 qinc)
    (he : ∀ a ∈ surfaces p, lengthAt p (u t) a ≠ 0 → e' a = e a)
    (hrho : ∀ a ∈ surfaces p, 0 ≤ rho a ∧ rho a < 1) (x : SurfRef → ℝ) :
    ArrivingLight p (fitStep p (u t)) e' rho sky x ↔
      ∀ a ∈ surfaces p, lengthAt p (u t) a ≠ 0 → x a = qinc a := by
  have htol : ∀ a ∈ surfaces p, lengthAt p (u t) a ≠ 0 → TOL < lengthAt p (u t) a :=
    fun a ha hl => (hT.len a ha).resolve_left hl
  have hq : ∀ a ∈ surfaces p, lengthAt p (u t) a ≠ 0 →
      qinc a = e' a + ∑ b ∈ surfaces p, rayView p (fitStep p (u t)) a b * (rho b * qinc b)
        + raySky p (fitStep p (u t)) a * sky := by
    intro a ha hl
    rw [he a ha hl, hB.arriving a ha,
      C52_sky_by_rays p u t hT.array hT.step hT.flat hT.cut hT.len ha (htol a ha hl)]
    congr 2
    refine Finset.sum_congr rfl fun b hb => ?_
    rw [C51_view_factor_by_rays p u t hT.array hT.step hT.flat ha hb (htol a ha hl) (hT.len b hb),
      hB.sent b hb]
  constructor
  · intro hx
    by_contra hne
    push Not at hne
    obtain ⟨c, hc, hcl, hcne⟩ := hne
    let S := (surfaces p).filter fun a => lengthAt p (u t) a ≠ 0
    have hS : c ∈ S := Finset.mem_filter.2 ⟨hc, hcl⟩
    obtain ⟨m, hm, hmax⟩ := S.exists_max_image (fun a => |x a - qinc a|) ⟨c, hS⟩
    obtain ⟨hm1, hm2⟩ := Finset.mem_filter.1 hm
    set M := |x m - qinc m| with hM
    have hM0 : 0 < M := lt_of_lt_of_le (abs_pos.2 (sub_ne_zero.2 hcne)) (hmax c hS)
    have hd : x m - qinc m = ∑ b ∈ surfaces p,
        rayView p (fitStep p (u t)) m b * (rho b * (x b - qinc b)) := by
      rw [hx m hm1 hm2, hq m hm1 hm2]
      simp only [mul_sub, Finset.sum_sub_distrib]
      ring
    have hle : ∀ b ∈ surfaces p, |rayView p (fitStep p (u t)) m b * (rho b * (x b - qinc b))|
        ≤ rayView p (fitStep p (u t)) m b * (rho b * M) := by
      intro b hb
      have h0 := rayView_nonneg hT hm1 hb (htol m hm1 hm2)
      by_cases hbl : lengthAt p (u t) b = 0
      · rw [rayView_point hbl]; simp
      · rw [abs_mul, abs_mul, abs_of_nonneg h0, abs_of_nonneg (hrho b hb).1]
        exact mul_le_mul_of_nonneg_left (mul_le_mul_of_nonneg_left
          (hmax b (Finset.mem_filter.2 ⟨hb, hbl⟩)) (hrho b hb).1) h0
    -- the sum of the view factors is at most one
    have hsum := C52_rays_complete p (u t) hT.array hT.step hT.flat hT.cut hm1
    have hsky : 0 ≤ raySky p (fitStep p (u t)) m := by
      rw [← C52_sky_by_rays p u t hT.array hT.step hT.flat hT.cut hT.len hm1 (htol m hm1 hm2)]
      exact (C02_viewFactorsOk p u t hT.array hT.step).nonneg_sky m hm1
    have h1 : M ≤ ∑ b ∈ surfaces p, rayView p (fitStep p (u t)) m b * (rho b * M) := by
      calc M = |∑ b ∈ surfaces p, rayView p (fitStep p (u t)) m b * (rho b * (x b - qinc b))| := by
            rw [hM, hd]
        _ ≤ _ := (Finset.abs_sum_le_sum_abs _ _).trans (Finset.sum_le_sum hle)
    by_cases hall : ∀ b ∈ surfaces p, rayView p (fitStep p (u t)) m b = 0
    · rw [Finset.sum_eq_zero fun b hb => by rw [hall b hb, zero_mul]] at h1
      linarith
    · push Not at hall
      obtain ⟨b, hb, hbne⟩ := hall
      have h2 : ∑ b ∈ surfaces p, rayView p (fitStep p (u t)) m b * (rho b * M)
          < ∑ b ∈ surfaces p, rayView p (fitStep p (u t)) m b * M := by
        refine Finset.sum_lt_sum (fun b hb => ?_) ⟨b, hb, ?_⟩
        · exact mul_le_mul_of_nonneg_left (by nlinarith [(hrho b hb).2])
            (rayView_nonneg hT hm1 hb (htol m hm1 hm2))
        · exact mul_lt_mul_of_pos_left (by nlinarith [(hrho b hb).2])
            (lt_of_le_of_ne (rayView_nonneg hT hm1 hb (htol m hm1 hm2)) (Ne.symm hbne))
      rw [← Finset.sum_mul] at h2
      nlinarith
  · intro hx a ha hl
    rw [hx a ha hl, hq a ha hl]
    congr 2
    refine Finset.sum_congr rfl fun b hb => ?_
    by_cases hbl : lengthAt p (u t) b = 0
    · rw [rayView_point hbl]; simp
    · rw [hx b hb hbl]

/-- C91: full mode with the isotropic sky model.  The sun is above the horizon and the modules face
at a right angle to their axis.  Numbers `x` solve the balance of light that travels along straight
lines (`ArrivingLight`) exactly if they are the incident irradiance that full mode returns for
surfaces that are not points. -/
theorem C91_isotropic (p : ArrayParams) (u : ι → StepIn) (q : IrrParams) (v : ι → IrrIn)
    (aoi : ι → Option (List Asg)) (o : ι → FullOut)
    (h : runFullMode p u (fun t => isotropicStep q (v t)) aoi = some o)
    (hl : ∀ t, LossesOk q (v t)) (t : ι) (hT : Traceable p (u t)) (hv : SameStep (u t) (v t))
    (hz0 : 0 ≤ (u t).solarZenith) (hz1 : (u t).solarZenith < 90)
    (haz : cosd ((u t).surfaceAzimuth - p.axisAzimuth) = 0) (x : SurfRef → ℝ) :
    ArrivingLight p (fitStep p (u t)) (sunlight p (fitStep p (u t)) (v t).dni (openShare q))
        (reflectivity (v t).albedo q.rhoFront q.rhoBack) (v t).dhi x ↔
      ∀ a ∈ surfaces p, lengthAt p (u t) a ≠ 0 → x a = (o t).qinc a := by
  obtain ⟨hB, -⟩ := C06_isotropic p u q v aoi o h (hl t).front.1.ne' (hl t).back.1.ne'
    (fun t => (hl t).albedo.1.ne') t
  have hrho : reflectivity (v t).albedo q.rhoFront q.rhoBack = rhoOf q (v t) := by
    funext a
    match a with
    | .gnd _ _ _ => rfl
    | .pv _ .front _ _ => rfl
    | .pv _ .back _ _ => rfl
  rw [hrho]
  refine balance_by_rays hT hB (fun a ha hla => ?_) (fun a _ => ?_) x
  · exact sunlight_eq hT.array hT.step hv hz0 hz1 haz ha hla
  · match a with
    | .gnd _ _ _ => exact ⟨(hl t).albedo.1.le, (hl t).albedo.2⟩
    | .pv _ .front _ _ => exact ⟨(hl t).front.1.le, (hl t).front.2⟩
    | .pv _ .back _ _ => exact ⟨(hl t).back.1.le, (hl t).back.2⟩

/-- C91: without direct light the sun may be anywhere, also below the horizon, and the modules may
face any way: full mode with the isotropic sky model returns the light of the sky and its
reflections. -/
theorem C91_no_sun (p : ArrayParams) (u : ι → StepIn) (q : IrrParams) (v : ι → IrrIn)
    (aoi : ι → Option (List Asg)) (o : ι → FullOut)
    (h : runFullMode p u (fun t => isotropicStep q (v t)) aoi = some o)
    (hl : ∀ t, LossesOk q (v t)) (t : ι) (hT : Traceable p (u t)) (hdni : (v t).dni = 0)
    (x : SurfRef → ℝ) :
    ArrivingLight p (fitStep p (u t)) (fun _ => 0)
        (reflectivity (v t).albedo q.rhoFront q.rhoBack) (v t).dhi x ↔
      ∀ a ∈ surfaces p, lengthAt p (u t) a ≠ 0 → x a = (o t).qinc a := by
  obtain ⟨hB, -⟩ := C06_isotropic p u q v aoi o h (hl t).front.1.ne' (hl t).back.1.ne'
    (fun t => (hl t).albedo.1.ne') t
  have hrho : reflectivity (v t).albedo q.rhoFront q.rhoBack = rhoOf q (v t) := by
    funext a
    match a with
    | .gnd _ _ _ => rfl
    | .pv _ .front _ _ => rfl
    | .pv _ .back _ _ => rfl
  rw [hrho]
  refine balance_by_rays hT hB (fun a _ _ => ?_) (fun a _ => ?_) x
  · have h0 : directCats q (v t) = ⟨0, 0, 0, 0, 0, 0⟩ := by
      simp [directCats, throughModules, hdni]
    rw [h0]
    match a with
    | .gnd false _ _ => rfl
    | .gnd true _ _ => rfl
    | .pv _ .front _ false => rfl
    | .pv _ .front _ true => rfl
    | .pv _ .back _ false => rfl
    | .pv _ .back _ true => rfl
  · match a with
    | .gnd _ _ _ => exact ⟨(hl t).albedo.1.le, (hl t).albedo.2⟩
    | .pv _ .front _ _ => exact ⟨(hl t).front.1.le, (hl t).front.2⟩
    | .pv _ .back _ _ => exact ⟨(hl t).back.1.le, (hl t).back.2⟩

/-! ## The hybrid Perez model -/

theorem circumsolar_get {q : IrrParams} {v : IrrIn} {K : ℝ} (hz : cosd v.solarZenith ≠ 0)
    (hK : v.perez.luminanceCircumsolar = K * cosd v.solarZenith)
    (hf : v.perez.poaCircumsolar = K * max 0
      (cosIncidence v.surfaceTilt v.surfaceAzimuth v.solarZenith v.solarAzimuth)) (a : SurfRef) :
    (circumsolarCats q v).get a = (directCats q { v with dni := K }).get a := by
  have hg : (circumsolarCats q v).groundIllum = (directCats q { v with dni := K }).groundIllum := hK
  have hfr : (circumsolarCats q v).frontIllum = (directCats q { v with dni := K }).frontIllum := by
    rw [direct_front]
    unfold circumsolarCats
    simp only [aoiFront_le_iff, hf]
    split_ifs with h
    · rfl
    · rw [max_eq_left (le_of_not_ge h), mul_zero]
  have hb : (circumsolarCats q v).backIllum = (directCats q { v with dni := K }).backIllum := by
    rw [direct_back]
    unfold circumsolarCats
    simp only [aoiFront_le_iff, poaCircumsolarBack, cosd_aoiBack, hK]
    by_cases h : 0 ≤ cosIncidence v.surfaceTilt v.surfaceAzimuth v.solarZenith v.solarAzimuth
    · rw [if_neg (by simpa using h), max_eq_left (by linarith), mul_zero]
    · rw [if_pos h, max_eq_right (by linarith)]
      field_simp
  match a with
  | .gnd false _ _ => exact hg
  | .gnd true _ _ => exact congrArg (throughModules q) hg
  | .pv _ .front _ false => exact hfr
  | .pv _ .front _ true => exact congrArg (throughModules q) hfr
  | .pv _ .back _ false => exact hb
  | .pv _ .back _ true => exact congrArg (throughModules q) hb

/-- C91: full mode with the hybrid Perez model.  If the circumsolar irradiances on the ground and on
the front are those of light of strength `K` from the direction of the sun, then numbers `x` solve
the balance of light with the sun of strength `dni + K` and the horizon band exactly if they are the
incident irradiance that full mode returns for surfaces that are not points. -/
theorem C91_hybrid (p : ArrayParams) (u : ι → StepIn) (q : IrrParams) (v : ι → IrrIn)
    (aoi : ι → Option (List Asg)) (o : ι → FullOut)
    (h : runFullMode p u (fun t => hybridPerezStep q p (fitStep p (u t)) (v t)) aoi = some o)
    (hl : ∀ t, LossesOk q (v t)) (t : ι) (hT : Traceable p (u t)) (hv : SameStep (u t) (v t))
    (hz0 : 0 ≤ (u t).solarZenith) (hz1 : (u t).solarZenith < 90)
    (haz : cosd ((u t).surfaceAzimuth - p.axisAzimuth) = 0)
    (hov : p.width * |cosd (u t).surfaceTilt| < p.distance)
    (hb0 : 0 < q.horizonBandAngle) (hb1 : q.horizonBandAngle < 90) (K : ℝ)
    (hK : (v t).perez.luminanceCircumsolar = K * (fitStep p (u t)).sun.y)
    (hf : (v t).perez.poaCircumsolar
      = K * max 0 (frontDotSun (fitStep p (u t)).rot.deg (fitStep p (u t)).sun))
    (x : SurfRef → ℝ) :
    ArrivingLight p (fitStep p (u t))
        (fun a => sunlight p (fitStep p (u t)) ((v t).dni + K) (openShare q) a
          + bandLight p (fitStep p (u t)) |(v t).perez.poaHorizon| q.horizonBandAngle a)
        (reflectivity (v t).albedo q.rhoFront q.rhoBack) (v t).perez.luminanceIsotropic x ↔
      ∀ a ∈ surfaces p, lengthAt p (u t) a ≠ 0 → x a = (o t).qinc a := by
  obtain ⟨hB, -⟩ := C06_hybrid p u q v aoi o h (hl t).front.1.ne' (hl t).back.1.ne'
    (fun t => (hl t).albedo.1.ne') t
  have hrho : reflectivity (v t).albedo q.rhoFront q.rhoBack = rhoOf q (v t) := by
    funext a
    match a with
    | .gnd _ _ _ => rfl
    | .pv _ .front _ _ => rfl
    | .pv _ .back _ _ => rfl
  have hy : 0 < cosd (u t).solarZenith := by
    unfold cosd deg2rad
    apply Real.cos_pos_of_mem_Ioo
    constructor <;> nlinarith [Real.pi_pos]
  rw [hrho]
  refine balance_by_rays hT hB (fun a ha hla => ?_) (fun a _ => ?_) x
  · have h1 := sunlight_eq (q := q) hT.array hT.step hv hz0 hz1 haz ha hla
    have h2 := sunlight_eq (q := q) (v := { v t with dni := K }) hT.array hT.step
      ⟨hv.zenith, hv.azimuth, hv.tilt, hv.surfaceAzimuth⟩ hz0 hz1 haz ha hla
    have h3 : (circumsolarCats q (v t)).get a = (directCats q { v t with dni := K }).get a := by
      refine circumsolar_get (by rw [hv.zenith]; exact hy.ne') (by rw [hv.zenith]; exact hK) ?_ a
      rw [incidence_step hT.step hv hz0 (by linarith) haz]
      exact hf
    have h4 : bandLight p (fitStep p (u t)) |(v t).perez.poaHorizon| q.horizonBandAngle a
        = horizonOf q p (fitStep p (u t)) (v t) a := by
      match a with
      | .gnd _ _ _ => rfl
      | .pv _ .front _ _ => rfl
      | .pv r .back k sh =>
        have := C56_band_by_rays q p (u t) hT.array hT.step.tilt_nonneg hT.step.tilt_lt
          hT.step.above hov hb0 hb1 ha
        simp only [decide_true] at this
        simp only [bandLight, SurfRef.kind, horizonOf, poaHorizonUsed]
        rw [← this]
    have h5 : sunlight p (fitStep p (u t)) ((v t).dni + K) (openShare q) a
        = sunlight p (fitStep p (u t)) (v t).dni (openShare q) a
          + sunlight p (fitStep p (u t)) K (openShare q) a := by
      unfold sunlight; ring
    simp only at h2
    rw [h5, h1, h2, h3, h4]
  · match a with
    | .gnd _ _ _ => exact ⟨(hl t).albedo.1.le, (hl t).albedo.2⟩
    | .pv _ .front _ _ => exact ⟨(hl t).front.1.le, (hl t).front.2⟩
    | .pv _ .back _ _ => exact ⟨(hl t).back.1.le, (hl t).back.2⟩

/-- C91: a time step of a run whose pvlib follows Perez' formulas, with the hybrid Perez model.  The
sun has the strength `DNI + DHI F1 / cos zenith`, the sky the luminance `DHI (1 - F1)`, the horizon
band the irradiance `|DHI F2 sin tilt|`. -/
theorem C91_perez {τ : Type} [Inhabited τ] {P : Pvlib τ} {F1 F2 : PerezIn → ℝ}
    (hP : PerezFormula P.perez F1 F2) {args : RunArgs τ} {l : List IrrIn}
    (hin : args.inputs P = some l) {i : ℕ} (p : ArrayParams) (u : ι → StepIn) (q : IrrParams)
    (v : ι → IrrIn) (aoi : ι → Option (List Asg)) (o : ι → FullOut)
    (h : runFullMode p u (fun t => hybridPerezStep q p (fitStep p (u t)) (v t)) aoi = some o)
    (hl : ∀ t, LossesOk q (v t)) (t : ι) (hi : l[i]? = some (v t)) (hs : SkyLit P args i (v t))
    (hT : Traceable p (u t)) (hv : SameStep (u t) (v t))
    (hz0 : 0 ≤ (u t).solarZenith) (hz1 : (u t).solarZenith ≤ 85)
    (haz : cosd ((u t).surfaceAzimuth - p.axisAzimuth) = 0)
    (hov : p.width * |cosd (u t).surfaceTilt| < p.distance)
    (hb0 : 0 < q.horizonBandAngle) (hb1 : q.horizonBandAngle < 90) (x : SurfRef → ℝ) :
    let f1 := F1 (args.perezIn P i)
    let f2 := F2 (args.perezIn P i)
    ArrivingLight p (fitStep p (u t))
        (fun a => sunlight p (fitStep p (u t))
            ((v t).dni + (v t).dhi * f1 / cosd (v t).solarZenith) (openShare q) a
          + bandLight p (fitStep p (u t)) |(v t).dhi * f2 * sind (v t).surfaceTilt|
              q.horizonBandAngle a)
        (reflectivity (v t).albedo q.rhoFront q.rhoBack) ((v t).dhi * (1 - f1)) x ↔
      ∀ a ∈ surfaces p, lengthAt p (u t) a ≠ 0 → x a = (o t).qinc a := by
  intro f1 f2
  obtain ⟨h1, h2, h3, h4⟩ := C64_luminances hP hin hi hs
  have hmono : cosd 85 ≤ cosd (v t).solarZenith := by
    rw [hv.zenith]; exact cosd_anti hz0 (by norm_num) hz1
  have hpos := lt_of_lt_of_le cosd_85_pos hmono
  have hsun : (fitStep p (u t)).sun.y = cosd (v t).solarZenith := by rw [hv.zenith]; rfl
  have := C91_hybrid p u q v aoi o h hl t hT hv hz0 (by linarith) haz hov hb0 hb1
    ((v t).dhi * f1 / cosd (v t).solarZenith)
    (by rw [hsun, h2]; exact (div_mul_cancel₀ _ hpos.ne').symm)
    (by rw [h3, max_eq_left hmono, incidence_step hT.step hv hz0 (by linarith) haz]; ring) x
  rw [h1, h4] at this
  exact this

/-! ## Instances -/

theorem vert_traceable : Traceable vertArray vertStep where
  array := vert_physicalArray
  step := vert_physicalStep
  flat := by intro h; norm_num [vertStep] at h
  cut := by
    intro r hr
    unfold ArrayParams.nFront ArrayParams.nBack vertArray
    constructor <;> simp <;> split_ifs <;> simp
  len := vert_lengths

/-- A time step with these rows and 100 W/m2 of direct and of diffuse light, half of which comes from
the direction of the sun: both irradiance models return the light that arrives along straight
lines. -/
theorem C91_demo :
    let v := inputAt halfPvlib (oneStep 90 270 45 270) 0
    let g := fitStep vertArray vertStep
    let s := sunlight vertArray g
    let ρ := reflectivity (1 / 10) demoIrrParams.rhoFront demoIrrParams.rhoBack
    ∃ o o' : Fin 3 → FullOut,
      runFullMode vertArray (fun _ => vertStep) (fun _ => isotropicStep demoIrrParams v)
        (fun _ => none) = some o ∧
      runFullMode vertArray (fun _ => vertStep)
        (fun _ => hybridPerezStep demoIrrParams vertArray g v) (fun _ => none) = some o' ∧
      ∀ t, ArrivingLight vertArray g (s 100 (openShare demoIrrParams)) ρ 100 (o t).qinc ∧
        ArrivingLight vertArray g
          (fun a => s (100 + 50 / cosd 45) (openShare demoIrrParams) a
            + bandLight vertArray g 0 (15 / 2) a) ρ 50 (o' t).qinc := by
  intro v g s ρ
  have hloss : LossesOk demoIrrParams v := by
    refine ⟨by norm_num [demoIrrParams], by norm_num [demoIrrParams], ?_⟩
    have : v.albedo = 1 / 10 := rfl
    rw [this]; norm_num
  have hsame : SameStep vertStep v := ⟨rfl, rfl, rfl, rfl⟩
  have haz : cosd (vertStep.surfaceAzimuth - vertArray.axisAzimuth) = 0 := by
    change cosd (270 - 0) = 0
    rw [show (270 - 0 : ℝ) = 90 + 180 by norm_num, cosd_add_180, cosd_90, neg_zero]
  have hc : cosIncidence 90 270 45 270 ≠ 0 := by
    rw [cosIncidence_east]; exact (sind_pos (by norm_num) (by norm_num)).ne'
  obtain ⟨o, ho⟩ := C07_isotropic vertArray (fun _ : Fin 3 => vertStep) demoIrrParams
    (fun _ => v) (fun _ => none) (fun _ => hloss) vert_physicalArray (fun _ => vert_physicalStep)
  obtain ⟨o', ho'⟩ := C07_hybrid vertArray (fun _ : Fin 3 => vertStep) demoIrrParams
    (fun _ => v) (fun _ => none) (fun _ => hloss) vert_physicalArray (fun _ => vert_physicalStep)
  refine ⟨o, o', ho, ho', fun t => ⟨?_, ?_⟩⟩
  · exact (C91_isotropic vertArray _ demoIrrParams _ _ o ho (fun _ => hloss) t vert_traceable hsame
      (by norm_num [vertStep]) (by norm_num [vertStep]) haz _).2 fun _ _ _ => rfl
  · have := (C91_perez halfPvlib_formula (oneStep_inputs 90 270 45 270) (i := 0) vertArray _
      demoIrrParams (fun _ => v) _ o' ho' (fun _ => hloss) t rfl
      (oneStep_lit (by norm_num) (by norm_num) (by norm_num) hc) vert_traceable hsame
      (by norm_num [vertStep]) (by norm_num [vertStep]) haz
      (by rw [show vertStep.surfaceTilt = 90 from rfl, cosd_90]
          norm_num [vertArray, ArrayParams.distance])
      (by norm_num [demoIrrParams]) (by norm_num [demoIrrParams]) (o' t).qinc).2 fun _ _ _ => rfl
    have e1 : v.dni + v.dhi * (1 / 2) / cosd v.solarZenith = 100 + 50 / cosd 45 := by
      change (100:ℝ) + 100 * (1 / 2) / cosd 45 = _
      norm_num
    have e2 : v.dhi * (1 - 1 / 2) = 50 := by
      change (100:ℝ) * (1 - 1 / 2) = 50
      norm_num
    simp only [e1, e2, mul_zero, zero_mul, abs_zero] at this
    exact this

/-- The hypotheses of `C91_no_sun` can be met: 100 W/m2 of diffuse light only. -/
theorem C91_no_sun_demo :
    let v := { inputAt halfPvlib (oneStep 90 270 45 270) 0 with dni := 0 }
    ∃ o : Fin 3 → FullOut,
      runFullMode vertArray (fun _ => vertStep) (fun _ => isotropicStep demoIrrParams v)
        (fun _ => none) = some o ∧
      ∀ t, ArrivingLight vertArray (fitStep vertArray vertStep) (fun _ => 0)
        (reflectivity (1 / 10) demoIrrParams.rhoFront demoIrrParams.rhoBack) 100 (o t).qinc := by
  intro v
  have hloss : LossesOk demoIrrParams v := by
    refine ⟨by norm_num [demoIrrParams], by norm_num [demoIrrParams], ?_⟩
    have : v.albedo = 1 / 10 := rfl
    rw [this]; norm_num
  obtain ⟨o, ho⟩ := C07_isotropic vertArray (fun _ : Fin 3 => vertStep) demoIrrParams
    (fun _ => v) (fun _ => none) (fun _ => hloss) vert_physicalArray (fun _ => vert_physicalStep)
  exact ⟨o, ho, fun t => (C91_no_sun vertArray _ demoIrrParams _ _ o ho (fun _ => hloss) t
    vert_traceable rfl _).2 fun _ _ _ => rfl⟩

end PVF

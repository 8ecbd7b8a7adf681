import Verif.Spec.FirstBounce
import Verif.Props.Principles
import Verif.Props.FastFull
import Verif.Props.SkyForm

/-! # C92: fast mode from first principles -/

namespace PVF

variable {ι : Type*} [Fintype ι]

theorem ground_in_reach {p : ArrayParams} {u : ι → StepIn} {t : ι} (hT : Traceable p (u t))
    {r k : ℕ} {sh : Bool} (ha : SurfRef.pv r .back k sh ∈ surfaces p)
    (hg : GroundInReach p (fitStep p (u t)) r (.pv r .back k sh)) :
    vfToPart p (tsVfMatrix p u t) (.pv r .back k sh) SurfRef.isGround
      = (fastVF p (fitStep p (u t)) r ((fitStep p (u t)).coords (.pv r .back k sh))).toGndTotal := by
  obtain ⟨hr, -⟩ := mem_allRefs_pv.1 (mem_surfaces.1 ha)
  obtain ⟨c, hc, hal⟩ := hg.own
  by_cases hpos : 0 < (fitStep p (u t)).rot.deg
  · by_cases hj : r + 1 < p.nRows
    · exact ((C29_ground_inner p u t hT.array hT.step hT.len r k sh ha (r + 1) hg.tilted
        (by rw [if_pos hpos]; exact ⟨rfl, hj⟩) c hc hal).2
        (hg.next (r + 1) hj (by rw [if_pos hpos]))).symm
    · exact C29_ground_edge p u t hT.array hT.step hT.len r k sh ha
        (by rw [if_pos hpos]; omega) (Or.inr ⟨c, hal, by rw [if_pos hpos]; exact hc.2⟩)
  · rcases Nat.eq_zero_or_pos r with h0 | h0
    · exact C29_ground_edge p u t hT.array hT.step hT.len r k sh ha
        (by rw [if_neg hpos]; exact h0) (Or.inr ⟨c, hal, by rw [if_neg hpos]; exact hc.1⟩)
    · exact ((C29_ground_inner p u t hT.array hT.step hT.len r k sh ha (r - 1) hg.tilted
        (by rw [if_neg hpos]; omega) c hc hal).2
        (hg.next (r - 1) (by omega) (by rw [if_neg hpos]; omega))).symm

/-- Fast mode by rays, for any irradiance model. -/
theorem fast_by_rays {p : ArrayParams} {u : ι → StepIn} {t : ι} (hT : Traceable p (u t))
    {s : IrrStep} (hs : InverseOk p s) (hr : ReflectivitiesOk p s)
    {r k : ℕ} {sh : Bool} (ha : SurfRef.pv r .back k sh ∈ surfaces p)
    (hl : lengthAt p (u t) (.pv r .back k sh) ≠ 0)
    (hg : GroundInReach p (fitStep p (u t)) r (.pv r .back k sh)) {f : FastOut}
    (hf : runFastMode p (fitStep p (u t)) s r none (.pv r .back k sh) = some f) :
    f.qinc = (s.comp (.pv r .back k sh)).sum
      + ∑ b ∈ surfaces p, rayView p (fitStep p (u t)) (.pv r .back k sh) b * assumedRadiosity s b
      + raySky p (fitStep p (u t)) (.pv r .back k sh) * s.sky := by
  have hl' := (hT.len _ ha).resolve_left hl
  -- a run of full mode over this time step alone
  obtain ⟨o, ho⟩ := C07_physical p (fun _ : Unit => u t) (fun _ => s) (fun _ => none)
    (fun _ => hs) (fun _ => hr) hT.array (fun _ => hT.step)
  have hd := C47_difference p (fun _ : Unit => u t) () hT.array hT.step hT.len
    (fun i hi => (hT.cut i hi).1) (fun _ => s) (fun _ => none) o ho (fun _ => hs) r k sh ha hl' f hf
  have hv : f.viewFactors = fastVF p (fitStep p (u t)) r
      ((fitStep p (u t)).coords (.pv r .back k sh)) := by
    rw [runFastMode_eq] at hf
    split_ifs at hf
    simp only [Option.some.injEq] at hf
    rw [← hf]; rfl
  have hgr := ground_in_reach (u := fun _ : Unit => u t) (t := ()) hT ha hg
  obtain ⟨hB, -⟩ := C06_radiosity p (fun _ : Unit => u t) (fun _ => s) (fun _ => none) o ho
    (fun _ => hs) ()
  have hq := hB.arriving _ ha
  simp only [hv, hgr, sub_self, zero_mul, add_zero] at hd
  rw [C52_sky_by_rays p (fun _ : Unit => u t) () hT.array hT.step hT.flat hT.cut hT.len ha hl'] at hq
  simp only [mul_sub, Finset.sum_sub_distrib] at hd
  have e1 : ∑ b ∈ surfaces p, vfBetween p (tsVfMatrix p (fun _ : Unit => u t) ())
      (.pv r .back k sh) b * assumedRadiosity s b
      = ∑ b ∈ surfaces p, rayView p (fitStep p (u t)) (.pv r .back k sh) b
        * assumedRadiosity s b := by
    refine Finset.sum_congr rfl fun b hb => ?_
    rw [C51_view_factor_by_rays p (fun _ : Unit => u t) () hT.array hT.step hT.flat ha hb hl'
      (hT.len b hb)]
  rw [e1] at hd
  linarith

/-- The isotropic model lights ground and fronts as open surroundings do. -/
theorem openLight_eq {p : ArrayParams} {u : StepIn} {q : IrrParams} {v : IrrIn}
    (hp : PhysicalArray p) (hu : PhysicalStep p u) (hv : SameStep u v) (hz0 : 0 ≤ u.solarZenith)
    (hz1 : u.solarZenith < 90) (haz : cosd (u.surfaceAzimuth - p.axisAzimuth) = 0)
    (hghi : v.ghi = none) (hdni : 0 ≤ v.dni)
    (hpoa : v.poaGlobal = max 0 (v.dni * cosIncidence v.surfaceTilt v.surfaceAzimuth
        v.solarZenith v.solarAzimuth) + v.dhi * ((1 + cosd v.surfaceTilt) / 2)
        + v.ghiUsed * v.albedo * ((1 - cosd v.surfaceTilt) / 2))
    {b : SurfRef} (hb : b ∈ surfaces p) (hl : lengthAt p u b ≠ 0) (hside : b.kind ≠ .back) :
    assumedRadiosity (isotropicStep q v) b
      = reflectivity v.albedo q.rhoFront q.rhoBack b
        * openLight p (fitStep p u) v.dni v.dhi v.albedo (openShare q) b := by
  have hy : 0 < cosd u.solarZenith := by
    unfold cosd deg2rad
    apply Real.cos_pos_of_mem_Ioo
    constructor <;> nlinarith [Real.pi_pos]
  have hsun : (fitStep p u).sun.y = cosd u.solarZenith := rfl
  have hg : v.ghiUsed = v.dni * cosd u.solarZenith + v.dhi := by
    unfold IrrIn.ghiUsed
    rw [hghi, hv.zenith]; rfl
  have hcos : cosd (fitStep p u).rot.deg = cosd v.surfaceTilt := by
    rw [hv.tilt]; exact rotation_cosd u p
  have hinc := incidence_step hu hv hz0 (by linarith) haz
  have hfront : (directCats q v).frontIllum = v.dni * max 0 (frontDotSun (fitStep p u).rot.deg
      (fitStep p u).sun) := by rw [direct_front, hinc]
  rw [hinc, ← mul_zero v.dni, ← mul_max_of_nonneg _ _ hdni] at hpoa
  unfold openLight
  rw [sunlight_of_shaded hp hu hy hb hl, outward_dot]
  match b with
  | .gnd false _ _ =>
    simp only [assumedRadiosity, isotropicStep, reflectivity, SurfRef.kind, SurfRef.isShaded,
      outward, openDiffuse, hg, hsun, max_eq_right hy.le]
    simp only [if_true, if_false, Bool.false_eq_true]; ring
  | .gnd true _ _ =>
    have : (directCats q v).groundShaded = openShare q * (v.dni * cosd u.solarZenith) := by
      rw [← hv.zenith]; exact throughModules_eq _ _
    simp only [assumedRadiosity, isotropicStep, reflectivity, SurfRef.kind, SurfRef.isShaded,
      outward, openDiffuse, hsun, max_eq_right hy.le, this]
    simp only [if_true, if_false, Bool.false_eq_true]; ring
  | .pv _ .front _ false =>
    simp only [assumedRadiosity, isotropicStep, reflectivity, SurfRef.kind, SurfRef.isShaded,
      outward, openDiffuse, hpoa, hcos, hg, hsun]
    simp only [if_true, if_false, Bool.false_eq_true]; ring
  | .pv _ .front _ true =>
    simp only [assumedRadiosity, isotropicStep, reflectivity, SurfRef.kind, SurfRef.isShaded,
      outward, openDiffuse, hpoa, hcos, hg, hsun, hfront]
    simp only [if_true, if_false, Bool.false_eq_true]; ring
  | .pv _ .back _ _ => exact absurd rfl hside

theorem rayView_back_back {p : ArrayParams} {u : StepIn} (hT : Traceable p u) {r k : ℕ} {sh : Bool}
    (ha : SurfRef.pv r .back k sh ∈ surfaces p) (hl : lengthAt p u (.pv r .back k sh) ≠ 0)
    {b : SurfRef} (hb : b ∈ surfaces p) (hside : b.kind = .back) :
    rayView p (fitStep p u) (.pv r .back k sh) b = 0 := by
  have hl' := (hT.len _ ha).resolve_left hl
  rw [← C51_view_factor_by_rays p (fun _ : Unit => u) () hT.array hT.step hT.flat ha hb hl'
    (hT.len b hb)]
  match b with
  | .pv r' .back k' sh' =>
    exact (C04_special_cases p (fun _ : Unit => u) ()).2.2 r .back k sh r' .back k' sh'
      (mem_surfaces.1 ha) (mem_surfaces.1 hb) (Or.inr rfl)

/-- C92: fast mode with the isotropic sky model in a run whose pvlib transposes light with an
isotropic sky and whose global irradiance is not given.  The incident irradiance of a back surface
is the light straight from the sun, from the sky along straight lines, and after one reflection by
ground and rows that are lit by open surroundings. -/
theorem C92_isotropic {τ : Type} [Inhabited τ] {P : Pvlib τ} (hP : IsotropicTransposition P.poaGlobal)
    {args : RunArgs τ} {l : List IrrIn} (hin : args.inputs P = some l) {i : ℕ} (p : ArrayParams)
    (u : StepIn) (q : IrrParams) (v : IrrIn) (hi : l[i]? = some v) (hloss : LossesOk q v)
    (hT : Traceable p u) (hv : SameStep u v) (hghi : v.ghi = none) (hdni : 0 ≤ v.dni)
    (hz0 : 0 ≤ u.solarZenith) (hz1 : u.solarZenith < 90)
    (haz : cosd (u.surfaceAzimuth - p.axisAzimuth) = 0) {r k : ℕ} {sh : Bool}
    (ha : SurfRef.pv r .back k sh ∈ surfaces p) (hl : lengthAt p u (.pv r .back k sh) ≠ 0)
    (hg : GroundInReach p (fitStep p u) r (.pv r .back k sh)) {f : FastOut}
    (hf : runFastMode p (fitStep p u) (isotropicStep q v) r none (.pv r .back k sh) = some f) :
    let g := fitStep p u
    let a := SurfRef.pv r .back k sh
    f.qinc = sunlight p g v.dni (openShare q) a
      + ∑ b ∈ surfaces p, rayView p g a b * (reflectivity v.albedo q.rhoFront q.rhoBack b
          * openLight p g v.dni v.dhi v.albedo (openShare q) b)
      + raySky p g a * v.dhi := by
  intro g a
  have hpoa : v.poaGlobal
      = max 0 (v.dni * cosIncidence v.surfaceTilt v.surfaceAzimuth v.solarZenith v.solarAzimuth)
        + v.dhi * ((1 + cosd v.surfaceTilt) / 2)
        + v.ghiUsed * v.albedo * ((1 - cosd v.surfaceTilt) / 2) := by
    have e := inputs_get hin hi
    subst e
    exact hP _ _ _ _ _ _ _ _
  rw [fast_by_rays (u := fun _ : Unit => u) (t := ()) hT (hloss.inverse_isotropic p)
    (hloss.reflectivities_isotropic p) ha hl hg hf]
  have e1 : ((isotropicStep q v).comp a).sum = sunlight p g v.dni (openShare q) a := by
    rw [sunlight_eq (q := q) hT.array hT.step hv hz0 hz1 haz ha hl]
    simp [isotropicStep, a]
  rw [e1]
  congr 2
  refine Finset.sum_congr rfl fun b hb => ?_
  by_cases hbl : lengthAt p u b = 0
  · rw [rayView_point hbl]; simp
  by_cases hside : b.kind = .back
  · rw [rayView_back_back hT ha hl hb hside]; simp
  · rw [openLight_eq hT.array hT.step hv hz0 hz1 haz hghi hdni hpoa hb hbl hside]

theorem openLightPerez_eq {p : ArrayParams} {u : StepIn} {q : IrrParams} {v : IrrIn}
    (hp : PhysicalArray p) (hu : PhysicalStep p u) (hv : SameStep u v) (hz0 : 0 ≤ u.solarZenith)
    (hz1 : u.solarZenith < 90) (haz : cosd (u.surfaceAzimuth - p.axisAzimuth) = 0)
    (hghi : v.ghi = none) (hdni : 0 ≤ v.dni) {K : ℝ}
    (hK : v.perez.luminanceCircumsolar = K * cosd u.solarZenith)
    (hf : v.perez.poaCircumsolar = K * max 0 (frontDotSun (fitStep p u).rot.deg (fitStep p u).sun))
    (hpoa : v.poaGlobal = max 0 (v.dni * cosIncidence v.surfaceTilt v.surfaceAzimuth
        v.solarZenith v.solarAzimuth) + v.dhi * ((1 + cosd v.surfaceTilt) / 2)
        + v.ghiUsed * v.albedo * ((1 - cosd v.surfaceTilt) / 2))
    {b : SurfRef} (hb : b ∈ surfaces p) (hl : lengthAt p u b ≠ 0) (hside : b.kind ≠ .back) :
    assumedRadiosity (hybridPerezStep q p (fitStep p u) v) b
      = reflectivity v.albedo q.rhoFront q.rhoBack b
        * openLightPerez p (fitStep p u) v.dni K v.dhi v.albedo (openShare q) b := by
  have hy : 0 < cosd u.solarZenith := by
    unfold cosd deg2rad
    apply Real.cos_pos_of_mem_Ioo
    constructor <;> nlinarith [Real.pi_pos]
  have hsun : (fitStep p u).sun.y = cosd u.solarZenith := rfl
  have hg : v.ghiUsed = v.dni * cosd u.solarZenith + v.dhi := by
    unfold IrrIn.ghiUsed
    rw [hghi, hv.zenith]; rfl
  have hcos : cosd (fitStep p u).rot.deg = cosd v.surfaceTilt := by
    rw [hv.tilt]; exact rotation_cosd u p
  have hinc := incidence_step hu hv hz0 (by linarith) haz
  have hcirc : ∀ a, (circumsolarCats q v).get a = (directCats q { v with dni := K }).get a := by
    intro a
    refine circumsolar_get (by rw [hv.zenith]; exact hy.ne') (by rw [hv.zenith]; exact hK) ?_ a
    rw [hinc]; exact hf
  have hfront : (directCats q v).frontIllum = v.dni * max 0 (frontDotSun (fitStep p u).rot.deg
      (fitStep p u).sun) := by rw [direct_front, hinc]
  have hfront' : (directCats q v).frontShaded = openShare q * (v.dni *
      max 0 (frontDotSun (fitStep p u).rot.deg (fitStep p u).sun)) := by
    rw [← hfront]; exact throughModules_eq _ _
  have cfront : (circumsolarCats q v).frontIllum = K * max 0 (frontDotSun (fitStep p u).rot.deg
      (fitStep p u).sun) := by
    have := hcirc (.pv 0 .front 0 false)
    simp only [Cats.get] at this
    rw [this, direct_front]
    simp only [hinc]
  have cfront' : (circumsolarCats q v).frontShaded = openShare q * (K *
      max 0 (frontDotSun (fitStep p u).rot.deg (fitStep p u).sun)) := by
    rw [← cfront]; exact throughModules_eq _ _
  rw [hinc, ← mul_zero v.dni, ← mul_max_of_nonneg _ _ hdni] at hpoa
  unfold openLightPerez
  rw [sunlight_of_shaded hp hu hy hb hl, outward_dot]
  match b with
  | .gnd false _ _ =>
    simp only [assumedRadiosity, hybridPerezStep, reflectivity, SurfRef.kind, SurfRef.isShaded,
      outward, openDiffuse, hg, hsun, max_eq_right hy.le]
    simp only [if_false, Bool.false_eq_true]; ring
  | .gnd true _ _ =>
    have h1 : (directCats q v).groundShaded = openShare q * (v.dni * cosd u.solarZenith) := by
      rw [← hv.zenith]; exact throughModules_eq _ _
    have h2 : (circumsolarCats q v).groundIllum = K * cosd u.solarZenith := hK
    have h3 : (circumsolarCats q v).groundShaded = openShare q * (K * cosd u.solarZenith) := by
      rw [← hK]; exact throughModules_eq _ _
    simp only [assumedRadiosity, hybridPerezStep, reflectivity, SurfRef.kind, SurfRef.isShaded,
      outward, openDiffuse, hsun, max_eq_right hy.le, h1, h2, h3]
    simp only [if_true]; ring
  | .pv _ .front _ false =>
    simp only [assumedRadiosity, hybridPerezStep, reflectivity, SurfRef.kind, SurfRef.isShaded,
      outward, openDiffuse, hpoa, hcos, hg, hsun]
    simp only [if_false, Bool.false_eq_true]; ring
  | .pv _ .front _ true =>
    simp only [assumedRadiosity, hybridPerezStep, reflectivity, SurfRef.kind, SurfRef.isShaded,
      outward, openDiffuse, hpoa, hcos, hg, hsun, hfront, hfront', cfront, cfront']
    simp only [if_true]; ring
  | .pv _ .back _ _ => exact absurd rfl hside

/-- C92: the same for the hybrid Perez model, for a pvlib that follows Perez' formulas; the zenith is
at most 85 degrees. -/
theorem C92_perez {τ : Type} [Inhabited τ] {P : Pvlib τ} (hP : IsotropicTransposition P.poaGlobal)
    {F1 F2 : PerezIn → ℝ} (hF : PerezFormula P.perez F1 F2)
    {args : RunArgs τ} {l : List IrrIn} (hin : args.inputs P = some l) {i : ℕ} (p : ArrayParams)
    (u : StepIn) (q : IrrParams) (v : IrrIn) (hi : l[i]? = some v) (hlit : SkyLit P args i v)
    (hloss : LossesOk q v) (hT : Traceable p u) (hv : SameStep u v) (hghi : v.ghi = none)
    (hdni : 0 ≤ v.dni) (hz0 : 0 ≤ u.solarZenith) (hz1 : u.solarZenith ≤ 85)
    (haz : cosd (u.surfaceAzimuth - p.axisAzimuth) = 0)
    (hov : p.width * |cosd u.surfaceTilt| < p.distance)
    (hb0 : 0 < q.horizonBandAngle) (hb1 : q.horizonBandAngle < 90) {r k : ℕ} {sh : Bool}
    (ha : SurfRef.pv r .back k sh ∈ surfaces p) (hl : lengthAt p u (.pv r .back k sh) ≠ 0)
    (hg : GroundInReach p (fitStep p u) r (.pv r .back k sh)) {f : FastOut}
    (hf : runFastMode p (fitStep p u) (hybridPerezStep q p (fitStep p u) v) r none
      (.pv r .back k sh) = some f) :
    let g := fitStep p u
    let a := SurfRef.pv r .back k sh
    let f1 := F1 (args.perezIn P i)
    let f2 := F2 (args.perezIn P i)
    let K := v.dhi * f1 / cosd v.solarZenith
    f.qinc = sunlight p g (v.dni + K) (openShare q) a
      + bandLight p g |v.dhi * f2 * sind v.surfaceTilt| q.horizonBandAngle a
      + ∑ b ∈ surfaces p, rayView p g a b * (reflectivity v.albedo q.rhoFront q.rhoBack b
          * openLightPerez p g v.dni K v.dhi v.albedo (openShare q) b)
      + raySky p g a * (v.dhi * (1 - f1)) := by
  intro g a f1 f2 K
  have hpoa : v.poaGlobal
      = max 0 (v.dni * cosIncidence v.surfaceTilt v.surfaceAzimuth v.solarZenith v.solarAzimuth)
        + v.dhi * ((1 + cosd v.surfaceTilt) / 2)
        + v.ghiUsed * v.albedo * ((1 - cosd v.surfaceTilt) / 2) := by
    have e := inputs_get hin hi
    subst e
    exact hP _ _ _ _ _ _ _ _
  obtain ⟨h1, h2, h3, h4⟩ := C64_luminances hF hin hi hlit
  have hmono : cosd 85 ≤ cosd v.solarZenith := by
    rw [hv.zenith]; exact cosd_anti hz0 (by norm_num) hz1
  have hpos := lt_of_lt_of_le cosd_85_pos hmono
  have hK : v.perez.luminanceCircumsolar = K * cosd u.solarZenith := by
    rw [h2, ← hv.zenith]; exact (div_mul_cancel₀ _ hpos.ne').symm
  have hKf : v.perez.poaCircumsolar = K * max 0 (frontDotSun g.rot.deg g.sun) := by
    rw [h3, max_eq_left hmono, incidence_step hT.step hv hz0 (by linarith) haz]
    change _ = v.dhi * f1 / cosd v.solarZenith * _
    ring
  rw [fast_by_rays (u := fun _ : Unit => u) (t := ()) hT (hloss.inverse_hybrid p _)
    (hloss.reflectivities_hybrid p _) ha hl hg hf]
  have e1 : ((hybridPerezStep q p g v).comp a).sum = sunlight p g (v.dni + K) (openShare q) a
      + bandLight p g |v.dhi * f2 * sind v.surfaceTilt| q.horizonBandAngle a := by
    have h1' := sunlight_eq (q := q) hT.array hT.step hv hz0 (by linarith) haz ha hl
    have h2' := sunlight_eq (q := q) (v := { v with dni := K }) hT.array hT.step
      ⟨hv.zenith, hv.azimuth, hv.tilt, hv.surfaceAzimuth⟩ hz0 (by linarith) haz ha hl
    have h3' : (circumsolarCats q v).get a = (directCats q { v with dni := K }).get a := by
      refine circumsolar_get hpos.ne' (by rw [hK, hv.zenith]) ?_ a
      rw [incidence_step hT.step hv hz0 (by linarith) haz]
      exact hKf
    have h4' : bandLight p g |v.dhi * f2 * sind v.surfaceTilt| q.horizonBandAngle a
        = horizonOf q p g v a := by
      have := C56_band_by_rays q p u hT.array hT.step.tilt_nonneg hT.step.tilt_lt
        hT.step.above hov hb0 hb1 ha
      simp only [decide_true] at this
      simp only [bandLight, SurfRef.kind, horizonOf, poaHorizonUsed, a, h4]
      rw [← this]
    have h5 : sunlight p g (v.dni + K) (openShare q) a
        = sunlight p g v.dni (openShare q) a + sunlight p g K (openShare q) a := by
      unfold sunlight; ring
    have hsum : ((hybridPerezStep q p g v).comp a).sum
        = (directCats q v).get a + (circumsolarCats q v).get a + horizonOf q p g v a := by
      simp [hybridPerezStep, add_assoc]
    rw [hsum, h5, h3', h4', ← h1', ← h2']
  rw [e1]
  have e2 : (hybridPerezStep q p (fitStep p u) v).sky = v.dhi * (1 - f1) := h1
  rw [e2]
  congr 2
  refine Finset.sum_congr rfl fun b hb => ?_
  by_cases hbl : lengthAt p u b = 0
  · rw [rayView_point hbl]; simp
  by_cases hside : b.kind = .back
  · rw [rayView_back_back hT ha hl hb hside]; simp
  · rw [openLightPerez_eq hT.array hT.step hv hz0 (by linarith) haz hghi hdni hK hKf hpoa hb hbl
      hside]

/-! ## Instance -/

theorem vert_reach : GroundInReach vertArray (fitStep vertArray vertStep) 0 (.pv 0 .back 1 false) where
  tilted := by rw [vert_deg]; norm_num
  own := ⟨0, by norm_num [MIN_X, MAX_X], by simpa using vert_cut_aligned 0⟩
  next := by
    intro j _ hj
    rw [if_pos (by rw [vert_deg]; norm_num)] at hj
    subst hj
    refine ⟨15 / 2, by norm_num [MIN_X, MAX_X], ?_⟩
    rw [vert_upper, vert_low]
    norm_num [Aligned]

/-- Light on the upper half of the back of the first of two vertical rows, 100 W/m2 of direct and of
diffuse light. -/
theorem C92_demo :
    let v := inputAt halfPvlib (oneStep 90 270 45 270) 0
    let g := fitStep vertArray vertStep
    let a := SurfRef.pv 0 .back 1 false
    let q := demoIrrParams
    ∃ f f', runFastMode vertArray g (isotropicStep q v) (0 : ℕ) none a = some f ∧
      runFastMode vertArray g (hybridPerezStep q vertArray g v) (0 : ℕ) none a = some f' ∧
      f'.qinc = sunlight vertArray g (100 + 50 / cosd 45) (openShare q) a
        + bandLight vertArray g 0 (15 / 2) a
        + ∑ b ∈ surfaces vertArray, rayView vertArray g a b
          * (reflectivity (1 / 10) q.rhoFront q.rhoBack b
            * openLightPerez vertArray g 100 (50 / cosd 45) 100 (1 / 10) (openShare q) b)
        + raySky vertArray g a * 50 ∧
      f.qinc = sunlight vertArray g 100 (openShare q) a
        + ∑ b ∈ surfaces vertArray, rayView vertArray g a b
          * (reflectivity (1 / 10) q.rhoFront q.rhoBack b
            * openLight vertArray g 100 100 (1 / 10) (openShare q) b)
        + raySky vertArray g a * 100 := by
  intro v g a q
  have hsome : (runFastMode vertArray g (isotropicStep q v) (0 : ℕ) none a).isSome :=
    (C30_targets _ _ _ _ _).2 ⟨1, false, by simp [vertArray, ArrayParams.nBack], rfl⟩
  obtain ⟨f, hf⟩ := Option.isSome_iff_exists.1 hsome
  have hsome' : (runFastMode vertArray g (hybridPerezStep q vertArray g v) (0 : ℕ) none a).isSome :=
    (C30_targets _ _ _ _ _).2 ⟨1, false, by simp [vertArray, ArrayParams.nBack], rfl⟩
  obtain ⟨f', hf'⟩ := Option.isSome_iff_exists.1 hsome'
  have hloss : LossesOk demoIrrParams v := by
    refine ⟨by norm_num [demoIrrParams], by norm_num [demoIrrParams], ?_⟩
    have : v.albedo = 1 / 10 := rfl
    rw [this]; norm_num
  have haz : cosd (vertStep.surfaceAzimuth - vertArray.axisAzimuth) = 0 := by
    change cosd (270 - 0) = 0
    rw [show (270 - 0 : ℝ) = 90 + 180 by norm_num, cosd_add_180, cosd_90, neg_zero]
  have hdni : (0:ℝ) ≤ v.dni := by
    have : v.dni = 100 := rfl
    rw [this]; norm_num
  have hc : cosIncidence 90 270 45 270 ≠ 0 := by
    rw [cosIncidence_east]; exact (sind_pos (by norm_num) (by norm_num)).ne'
  refine ⟨f, f', hf, hf', ?_, ?_⟩
  · have := C92_perez halfPvlib_transposition halfPvlib_formula (oneStep_inputs 90 270 45 270)
      (i := 0) vertArray vertStep q v rfl
      (oneStep_lit (by norm_num) (by norm_num) (by norm_num) hc) hloss vert_traceable
      ⟨rfl, rfl, rfl, rfl⟩ rfl hdni (by norm_num [vertStep]) (by norm_num [vertStep]) haz
      (by rw [show vertStep.surfaceTilt = 90 from rfl, cosd_90]
          norm_num [vertArray, ArrayParams.distance])
      (by norm_num [q, demoIrrParams]) (by norm_num [q, demoIrrParams])
      (vert_mem 1 (by norm_num) false) (by rw [vert_len 1 (by norm_num)]; norm_num) vert_reach hf'
    have e1 : v.dhi * (1 / 2) / cosd v.solarZenith = 50 / cosd 45 := by
      change (100:ℝ) * (1 / 2) / cosd 45 = _
      norm_num
    have e2 : v.dhi * (1 - 1 / 2) = 50 := by
      change (100:ℝ) * (1 - 1 / 2) = 50
      norm_num
    simp only [e1, e2, mul_zero, zero_mul, abs_zero] at this
    exact this
  exact C92_isotropic halfPvlib_transposition (oneStep_inputs 90 270 45 270) (i := 0) vertArray
    vertStep q v rfl hloss vert_traceable ⟨rfl, rfl, rfl, rfl⟩ rfl hdni (by norm_num [vertStep])
    (by norm_num [vertStep]) haz (vert_mem 1 (by norm_num) false)
    (by rw [vert_len 1 (by norm_num)]; norm_num) vert_reach hf

end PVF

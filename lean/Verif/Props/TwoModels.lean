import Verif.Spec.Sky
import Verif.Props.State
import Verif.Props.FastDemo

/-!
# C83: the two irradiance models under an isotropic sky
-/

namespace PVF

/-- The same engine with the other irradiance model. -/
def EngineCfg.withModel (c : EngineCfg) (k : IrrKind) : EngineCfg := { c with kind := k }

theorem throughModules_zero (q : IrrParams) : throughModules q 0 = 0 := by
  simp [throughModules]

theorem IsotropicSky.circ {v : IrrIn} (h : IsotropicSky v) (q : IrrParams) :
    circumsolarCats q v = ⟨0, 0, 0, 0, 0, 0⟩ := by
  simp [circumsolarCats, poaCircumsolarBack, h.circumsolar, h.poaCircumsolar, throughModules_zero]

theorem IsotropicSky.comp {v : IrrIn} (h : IsotropicSky v) (q : IrrParams) (p : ArrayParams)
    (g : StepGeom) (a : SurfRef) :
    sumComponents ((hybridPerezStep q p g v).comp a) = sumComponents ((isotropicStep q v).comp a) := by
  have e : horizonOf q p g v a = 0 := by
    rcases a with _ | ⟨_, _ | _, _, _⟩ <;> simp [horizonOf, poaHorizonUsed, h.horizon]
  have e' : (circumsolarCats q v).get a = 0 := by
    rw [h.circ]; rcases a with ⟨_ | _, _, _⟩ | ⟨_, _ | _, _, _ | _⟩ <;> rfl
  simp [hybridPerezStep, isotropicStep, sumComponents, e, e']

theorem IsotropicSky.compAbs {v : IrrIn} (h : IsotropicSky v) (q : IrrParams) (p : ArrayParams)
    (g : StepGeom) (a : SurfRef) :
    sumComponents ((hybridPerezStep q p g v).compAbs a)
      = sumComponents ((isotropicStep q v).compAbs a) := by
  have e : horizonAbsOf q p g v a = 0 := by
    rcases a with _ | ⟨_, _ | _, _, _⟩ <;> simp [horizonAbsOf, poaHorizonUsed, h.horizon]
  have e' : (circumsolarCats q v).get a = 0 := by
    rw [h.circ]; rcases a with ⟨_ | _, _, _⟩ | ⟨_, _ | _, _, _ | _⟩ <;> rfl
  simp [hybridPerezStep, isotropicStep, sumComponents, e, e']

theorem IsotropicSky.fullStep_eq {v : IrrIn} (h : IsotropicSky v) (q : IrrParams) (p : ArrayParams)
    (g : StepGeom) (vf : ℕ → ℕ → ℝ) (aoi : Option (List Asg)) :
    aMat p (hybridPerezStep q p g v) vf = aMat p (isotropicStep q v) vf ∧
    fullStep p (hybridPerezStep q p g v) vf aoi = fullStep p (isotropicStep q v) vf aoi := by
  have e1 : invRhoVec p (hybridPerezStep q p g v) = invRhoVec p (isotropicStep q v) := rfl
  have e2 : rhoVec p (hybridPerezStep q p g v) = rhoVec p (isotropicStep q v) := rfl
  have e3 : irradianceVec p (hybridPerezStep q p g v) = irradianceVec p (isotropicStep q v) := by
    have : (fun a => sumComponents ((hybridPerezStep q p g v).comp a))
      = fun a => sumComponents ((isotropicStep q v).comp a) := funext (h.comp q p g)
    have hs : (hybridPerezStep q p g v).sky = (isotropicStep q v).sky := h.isotropic
    simp only [irradianceVec, this, hs]
  have e4 : (fun a => sumComponents ((hybridPerezStep q p g v).compAbs a))
      = fun a => sumComponents ((isotropicStep q v).compAbs a) := funext (h.compAbs q p g)
  have e5 : aMat p (hybridPerezStep q p g v) vf = aMat p (isotropicStep q v) vf := rfl
  refine ⟨e5, ?_⟩
  simp only [fullStep, e1, e2, e3, e4, e5]

/-- **C83 (full mode).**  Under an isotropic sky an engine gives the same result with both irradiance
models in full mode: it fails with both or with none, and all stored values are equal. -/
theorem C83_full (c : EngineCfg) {n : ℕ} (v : Fin n → IrrIn) (h : ∀ t, IsotropicSky (v t)) :
    fullResult (c.withModel .hybridPerez) v = fullResult (c.withModel .isotropic) v := by
  classical
  have e : ∀ t vf, aMat c.p (hybridPerezStep c.q c.p (fitStep c.p (v t).step) (v t)) vf
      = aMat c.p (isotropicStep c.q (v t)) vf := fun t vf =>
    ((h t).fullStep_eq c.q c.p _ vf none).1
  have e' : ∀ t vf aoi, fullStep c.p (hybridPerezStep c.q c.p (fitStep c.p (v t).step) (v t)) vf aoi
      = fullStep c.p (isotropicStep c.q (v t)) vf aoi := fun t vf aoi =>
    ((h t).fullStep_eq c.q c.p _ vf aoi).2
  simp only [fullResult, runFullMode, irrStepOf, EngineCfg.withModel, e, e']
  congr

/-- **C83 (full mode, objects).**  The same for the engine objects, whatever was done with them before
they were fitted. -/
theorem C83_engine (c : EngineCfg) (hist hist' runs runs' : List EngineOp)
    (hr : ∀ op ∈ runs, op.IsRun) (hr' : ∀ op ∈ runs', op.IsRun) {n : ℕ} (v : Fin n → IrrIn)
    (h : ∀ t, IsotropicSky (v t)) :
    let c1 := c.withModel .hybridPerez
    let c2 := c.withModel .isotropic
    let x := engineFull c1 (engineRun c1 newEngine (hist ++ .fit v :: runs))
    let y := engineFull c2 (engineRun c2 newEngine (hist' ++ .fit v :: runs'))
    x.2 = y.2 ∧ (x.2 = true → x.1.vf = y.1.vf ∧ x.1.vfAoi = y.1.vfAoi ∧
      ∀ a ∈ allRefs c.p, ∀ k ∈ [PName.q0, .qinc, .isotropic, .reflection, .qabs],
        x.1.result n a k = y.1.result n a k ∧ (x.1.result n a k).isSome) := by
  intro c1 c2 x y
  have hx := C38_full c1 hist runs hr v
  have hy := C38_full c2 hist' runs' hr' v
  have he : fullResult c1 v = fullResult c2 v := C83_full c v h
  rw [he] at hx
  cases ho : fullResult c2 v with
  | none =>
    rw [ho] at hx hy
    have hx' : x.2 = false := hx
    have hy' : y.2 = false := hy
    refine ⟨hx'.trans hy'.symm, fun h => ?_⟩
    rw [hx'] at h; cases h
  | some o =>
    rw [ho] at hx hy
    obtain ⟨x1, x2, x3, x4⟩ := hx
    obtain ⟨y1, y2, y3, y4⟩ := hy
    refine ⟨x1.trans y1.symm, fun _ => ⟨x2.trans y2.symm, x3.trans y3.symm, fun a ha k hk => ?_⟩⟩
    obtain ⟨xa, xb, xc, xd, xe⟩ := x4 a ha
    obtain ⟨ya, yb, yc, yd, ye⟩ := y4 a ha
    simp only [List.mem_cons, List.not_mem_nil, or_false] at hk
    rcases hk with rfl | rfl | rfl | rfl | rfl
    · exact ⟨xa.trans ya.symm, by rw [xa]; rfl⟩
    · exact ⟨xb.trans yb.symm, by rw [xb]; rfl⟩
    · exact ⟨xc.trans yc.symm, by rw [xc]; rfl⟩
    · exact ⟨xd.trans yd.symm, by rw [xd]; rfl⟩
    · exact ⟨xe.trans ye.symm, by rw [xe]; rfl⟩

/-- **C83 (fast mode).**  In fast mode the two models agree on all parts except the light reflected
from shaded fronts of the row behind: the isotropic model leaves out the direct light that passes through
the modules, so that its value is smaller by view factor times reflectivity times this light. -/
theorem C83_fast (q : IrrParams) (p : ArrayParams) (g : StepGeom) (v : IrrIn) (h : IsotropicSky v)
    (i : ℤ) (a : SurfRef) :
    let x := fastSurface p g (hybridPerezStep q p g v) i a
    let y := fastSurface p g (isotropicStep q v) i a
    let missed := x.viewFactors.toPvrowShaded * q.rhoFront
      * ((isotropicStep q v).comp (.pv 0 .front 0 true)).sum
    x.isotropic = y.isotropic ∧ x.skyTerm = y.skyTerm ∧ x.viewFactors = y.viewFactors ∧
    x.reflectionGndShaded = y.reflectionGndShaded ∧ x.reflectionGndIllum = y.reflectionGndIllum ∧
    x.reflectionPvrowIllum = y.reflectionPvrowIllum ∧
    x.reflectionPvrowShaded = y.reflectionPvrowShaded + missed ∧
    x.reflection = y.reflection + missed ∧ x.qinc = y.qinc + missed := by
  intro x y missed
  have hc := h.comp q p g a
  have hcirc := h.circ q
  have e1 : (hybridPerezStep q p g v).sky = (isotropicStep q v).sky := h.isotropic
  have e2 : (hybridPerezStep q p g v).gndShaded = (isotropicStep q v).gndShaded := by
    simp [hybridPerezStep, isotropicStep, hcirc]
  have e3 : (hybridPerezStep q p g v).pvrowShaded = (isotropicStep q v).pvrowShaded
      + ((isotropicStep q v).comp (.pv 0 .front 0 true)).sum := by
    simp [hybridPerezStep, isotropicStep, hcirc, Cats.get]
  have r1 : x.isotropic = y.isotropic := by simp only [x, y, fastSurface, e1]
  have r2 : x.skyTerm = y.skyTerm := by simp only [x, y, fastSurface, hc]
  have r3 : x.reflectionGndShaded = y.reflectionGndShaded := by
    simp only [x, y, fastSurface, e2]; rfl
  have r4 : x.reflectionGndIllum = y.reflectionGndIllum := rfl
  have r5 : x.reflectionPvrowIllum = y.reflectionPvrowIllum := rfl
  have r6 : x.reflectionPvrowShaded = y.reflectionPvrowShaded + missed := by
    simp only [x, y, missed, fastSurface, e3]
    simp only [hybridPerezStep, isotropicStep]; ring
  have r7 : x.reflection = y.reflection + missed := by
    have hx : x.reflection = x.reflectionGndShaded + x.reflectionGndIllum + x.reflectionPvrowShaded
      + x.reflectionPvrowIllum := rfl
    have hy : y.reflection = y.reflectionGndShaded + y.reflectionGndIllum + y.reflectionPvrowShaded
      + y.reflectionPvrowIllum := rfl
    rw [hx, hy, r3, r4, r5, r6]; ring
  have r8 : x.qinc = y.qinc + missed := by
    have hx : x.qinc = x.reflectionGndShaded + x.reflectionGndIllum + x.reflectionPvrowShaded
      + x.reflectionPvrowIllum + x.isotropic + x.skyTerm := rfl
    have hy : y.qinc = y.reflectionGndShaded + y.reflectionGndIllum + y.reflectionPvrowShaded
      + y.reflectionPvrowIllum + y.isotropic + y.skyTerm := rfl
    rw [hx, hy, r1, r2, r3, r4, r5, r6]; ring
  exact ⟨r1, r2, rfl, r3, r4, r5, r6, r7, r8⟩

/-- An isotropic sky with the same direct light as in `shadeIrrIn`. -/
noncomputable def isoIrrIn : IrrIn := { shadeIrrIn with perez := ⟨100, 0, 0, 0⟩ }

/-- C83 applies to a case that runs: two rows that shade each other, with an isotropic sky.  Full mode
returns the same values with both models.  With the sun at the zenith above flat rows, fast mode counts
380 W/m2 on shaded fronts with one and 100 W/m2 with the other model. -/
theorem C83_demo :
    IsotropicSky isoIrrIn ∧
    (∃ o, fullResult (demoCfg.withModel .isotropic) (fun _ : Fin 3 => isoIrrIn) = some o ∧
      fullResult (demoCfg.withModel .hybridPerez) (fun _ : Fin 3 => isoIrrIn) = some o) ∧
    (let v : IrrIn := { demoIrrIn with perez := ⟨100, 0, 0, 0⟩ }
     IsotropicSky v ∧
     (hybridPerezStep demoIrrParams denseArray (fitStep denseArray v.step) v).pvrowShaded = 380 ∧
     (isotropicStep demoIrrParams v).pvrowShaded = 100) := by
  have h0 : IsotropicSky isoIrrIn := ⟨rfl, rfl, rfl, rfl⟩
  refine ⟨h0, ?_, ?_⟩
  · obtain ⟨o, ho⟩ := C07_hybrid denseArray (fun _ : Fin 3 => shadeStep) demoIrrParams
      (fun _ => isoIrrIn) (aoiOf none denseArray fun _ => shadeStep)
      (fun _ => ⟨demo_losses.front, demo_losses.back, demo_losses.albedo⟩) dense_physicalArray
      (fun _ => shade_physicalStep)
    have ho' : fullResult (demoCfg.withModel .hybridPerez) (fun _ : Fin 3 => isoIrrIn) = some o := ho
    exact ⟨o, (C83_full demoCfg _ fun _ => h0).symm.trans ho', ho'⟩
  · intro v
    have hv : IsotropicSky v := ⟨rfl, rfl, rfl, rfl⟩
    have hd : directCats demoIrrParams v = directCats demoIrrParams demoIrrIn := rfl
    have h : (directCats demoIrrParams demoIrrIn).frontIllum = 1000 := by
      rw [direct_front, demo_cosIncidence]; norm_num [demoIrrIn]
    have h' : (directCats demoIrrParams demoIrrIn).frontShaded = 280 := by
      have : (directCats demoIrrParams demoIrrIn).frontShaded
        = throughModules demoIrrParams (directCats demoIrrParams demoIrrIn).frontIllum := rfl
      rw [this, h]; norm_num [throughModules, demoIrrParams]
    have hp : v.poaGlobal = 1100 := rfl
    refine ⟨hv, ?_, ?_⟩
    · simp only [hybridPerezStep, hv.circ, hd, h, h', hp]; norm_num
    · simp only [isotropicStep, hd, h, hp]; norm_num

end PVF

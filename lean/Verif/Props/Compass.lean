import Verif.Spec.Turn
import Verif.Props.Run
import Verif.Props.Perez

/-! # Turning the whole scene about the vertical changes no result: C71 -/

namespace PVF

theorem SameDir.cosd_sub {δ a b a' b' : ℝ} (h : SameDir δ a a') (h' : SameDir δ b b') :
    cosd (a' - b') = cosd (a - b) := by
  obtain ⟨k, rfl⟩ := h
  obtain ⟨l, rfl⟩ := h'
  have : a + δ + 360 * k - (b + δ + 360 * l) = (a - b) + 360 * ((k - l : ℤ) : ℝ) := by
    push_cast; ring
  rw [this]
  unfold cosd deg2rad
  rw [show ((a - b) + 360 * ((k - l : ℤ) : ℝ)) * Real.pi / 180
    = (a - b) * Real.pi / 180 + (k - l : ℤ) * (2 * Real.pi) by ring, Real.cos_add_int_mul_two_pi]

theorem solar2d_turn {δ : ℝ} {sun sun' : ℝ} (z axis : ℝ) (h : SameDir δ sun sun') :
    solar2dVector z sun' (axis + δ) = solar2dVector z sun axis := by
  have h2 : SameDir δ (axis + 90) (axis + δ + 90) := ⟨0, by push_cast; ring⟩
  unfold solar2dVector
  rw [show sun' - (axis + δ) - 90 = sun' - (axis + δ + 90) by ring, h.cosd_sub h2,
    show sun - (axis + 90) = sun - axis - 90 by ring]

theorem rotation_turn {δ : ℝ} {az az' : ℝ} (tilt axis : ℝ) (h : SameDir δ az az') :
    rotationFromTiltAzimuth az' (axis + δ) tilt = rotationFromTiltAzimuth az axis tilt := by
  obtain ⟨k, rfl⟩ := h
  unfold rotationFromTiltAzimuth
  rw [show az + δ + 360 * k - (axis + δ) = (az - axis) + 360 * (k : ℝ) by ring, pyMod_add_mul]

/-- C71: the geometry at a time step is the same if rows, modules and sun are turned by the same
angle. -/
theorem C71_geometry (δ : ℝ) (p : ArrayParams) (u u' : StepIn) (h : TurnedStep δ u u') :
    fitStep (p.turn δ) u' = fitStep p u := by
  have e1 := rotation_turn u.surfaceTilt p.axisAzimuth h.surface
  have e2 := solar2d_turn u.solarZenith p.axisAzimuth h.sun
  have : fitStep (p.turn δ) u' = fitGeom p
    (rotationFromTiltAzimuth u'.surfaceAzimuth (p.axisAzimuth + δ) u'.surfaceTilt)
    (solar2dVector u'.solarZenith u'.solarAzimuth (p.axisAzimuth + δ)) := rfl
  rw [this, h.tilt, h.zenith, e1, e2]
  rfl

theorem TurnedIn.step {δ : ℝ} {v v' : IrrIn} (h : TurnedIn δ v v') :
    TurnedStep δ v.step v'.step where
  zenith := by rw [h.rest]; rfl
  tilt := by rw [h.rest]; rfl
  sun := h.sun
  surface := h.surface

theorem fitSteps_turn {δ : ℝ} {p : ArrayParams} {ι : Type*} {u u' : ι → StepIn}
    (h : ∀ t, TurnedStep δ (u t) (u' t)) :
    (fun t => fitStep (p.turn δ) (u' t)) = fun t => fitStep p (u t) :=
  funext fun t => C71_geometry δ p _ _ (h t)

/-- C71: the view factor matrix of every time step is the same. -/
theorem C71_view_factors {ι : Type*} [Fintype ι] (δ : ℝ) (p : ArrayParams) (u u' : ι → StepIn)
    (h : ∀ t, TurnedStep δ (u t) (u' t)) : tsVfMatrix (p.turn δ) u' = tsVfMatrix p u := by
  funext t
  unfold tsVfMatrix
  rw [fitSteps_turn h, C71_geometry δ p _ _ (h t)]
  rfl

theorem nRows_turn (δ : ℝ) (p : ArrayParams) : (p.turn δ).nRows = p.nRows := rfl
theorem allRefs_turn (δ : ℝ) (p : ArrayParams) : allRefs (p.turn δ) = allRefs p := rfl
theorem surfIndex_turn (δ : ℝ) (p : ArrayParams) : surfIndex (p.turn δ) = surfIndex p := rfl
theorem sideRefs_turn (δ : ℝ) (p : ArrayParams) : sideRefs (p.turn δ) = sideRefs p := rfl
theorem gndRefsSide_turn (δ : ℝ) (p : ArrayParams) : gndRefsSide (p.turn δ) = gndRefsSide p := rfl
theorem nTsSurfaces_turn (δ : ℝ) (p : ArrayParams) : nTsSurfaces (p.turn δ) = nTsSurfaces p := rfl
theorem sideColl_turn (δ : ℝ) (p : ArrayParams) : sideColl (p.turn δ) = sideColl p := rfl
theorem dummySky_turn (δ : ℝ) (p : ArrayParams) : dummySky (p.turn δ) = dummySky p := rfl

theorem aoiAsg_turn {ι : Type*} [Fintype ι] {δ : ℝ} (m : Option AOIMethods) (p : ArrayParams)
    (u u' : ι → StepIn) (h : ∀ t, TurnedStep δ (u t) (u' t)) :
    aoiAsg m (p.turn δ) u' = aoiAsg m p u := by
  funext t
  unfold aoiAsg
  have : ∀ m, asgAoiTs m (p.turn δ) u' t = asgAoiTs m p u t := by
    intro m
    have g : ∀ t, fitStep (p.turn δ) (u' t) = fitStep p (u t) := fun t => C71_geometry δ p _ _ (h t)
    unfold asgAoiTs asgAoi asgAoiPvGnd asgAoiPvPv asgAoiSky
    simp only [g, nRows_turn, surfIndex_turn, sideRefs_turn, gndRefsSide_turn, nTsSurfaces_turn,
      dummySky_turn]
  simp only [this]

theorem aoiFront_turn {δ : ℝ} {v v' : IrrIn} (h : TurnedIn δ v v') : v'.aoiFront = v.aoiFront := by
  have e := h.sun.cosd_sub h.surface
  have e1 : v'.surfaceTilt = v.surfaceTilt := by rw [h.rest]
  have e2 : v'.solarZenith = v.solarZenith := by rw [h.rest]
  unfold IrrIn.aoiFront aoiFunction aoiProjection
  rw [e, e1, e2]

theorem directCats_turn {δ : ℝ} {q : IrrParams} {v v' : IrrIn} (h : TurnedIn δ v v') :
    directCats q v' = directCats q v := by
  have e := aoiFront_turn h
  have e1 : v'.dni = v.dni := by rw [h.rest]
  have e2 : v'.solarZenith = v.solarZenith := by rw [h.rest]
  unfold directCats IrrIn.aoiBack
  rw [e, e1, e2]

theorem circumsolarCats_turn {δ : ℝ} {q : IrrParams} {v v' : IrrIn} (h : TurnedIn δ v v') :
    circumsolarCats q v' = circumsolarCats q v := by
  have e := aoiFront_turn h
  have e1 : v'.perez = v.perez := by rw [h.rest]
  have e2 : v'.solarZenith = v.solarZenith := by rw [h.rest]
  unfold circumsolarCats poaCircumsolarBack IrrIn.aoiBack
  rw [e, e1, e2]

theorem irrAttrs_turn {δ : ℝ} {k : IrrKind} {q : IrrParams} {v v' : IrrIn} (h : TurnedIn δ v v') :
    irrAttrs k q v' = irrAttrs k q v := by
  have e1 : v'.dni = v.dni := by rw [h.rest]
  have e2 : v'.solarZenith = v.solarZenith := by rw [h.rest]
  have e3 : v'.dhi = v.dhi := by rw [h.rest]
  have e4 : v'.albedo = v.albedo := by rw [h.rest]
  have e5 : v'.ghi = v.ghi := by rw [h.rest]
  have e6 : v'.poaGlobal = v.poaGlobal := by rw [h.rest]
  have e7 : v'.perez = v.perez := by rw [h.rest]
  unfold irrAttrs IrrIn.ghiUsed
  rw [directCats_turn h, circumsolarCats_turn h, e1, e2, e3, e4, e5, e6, e7]

theorem faoiDirectOf_turn {δ : ℝ} {q : IrrParams} {v v' : IrrIn} (h : TurnedIn δ v v')
    (a : SurfRef) : faoiDirectOf q v' a = faoiDirectOf q v a := by
  have e := aoiFront_turn h
  have e4 : v'.albedo = v.albedo := by rw [h.rest]
  unfold faoiDirectOf faoiDirectFront faoiDirectBack IrrIn.aoiBack
  rw [e, e4]

theorem transformParams_turn {δ : ℝ} {c : EngineCfg} {n : ℕ} {v v' : Fin n → IrrIn}
    (h : ∀ t, TurnedIn δ (v t) (v' t)) (a : SurfRef) :
    transformParams (c.turn δ) v' a = transformParams c v a := by
  have d : ∀ t, directCats c.q (v' t) = directCats c.q (v t) := fun t => directCats_turn (h t)
  have ci : ∀ t, circumsolarCats c.q (v' t) = circumsolarCats c.q (v t) :=
    fun t => circumsolarCats_turn (h t)
  have fa : ∀ t, faoiDirectOf c.q (v' t) a = faoiDirectOf c.q (v t) a :=
    fun t => faoiDirectOf_turn (h t) a
  have at' : ∀ k t, irrAttrs k c.q (v' t) = irrAttrs k c.q (v t) := fun k t => irrAttrs_turn (h t)
  have g : ∀ t, fitStep (c.p.turn δ) (v' t).step = fitStep c.p (v t).step :=
    fun t => C71_geometry δ c.p _ _ (h t).step
  have e4 : ∀ t, (v' t).albedo = (v t).albedo := fun t => by rw [(h t).rest]
  have e1 : ∀ t, (v' t).surfaceTilt = (v t).surfaceTilt := fun t => by rw [(h t).rest]
  have e7 : ∀ t, (v' t).perez = (v t).perez := fun t => by rw [(h t).rest]
  have rh : ∀ t, rhoOf c.q (v' t) a = rhoOf c.q (v t) a := fun t => by
    unfold rhoOf; rw [e4]
  have ph : ∀ t, poaHorizonUsed (v' t) = poaHorizonUsed (v t) := fun t => by
    unfold poaHorizonUsed; rw [e7]
  have ho : ∀ t, horizonOf c.q (c.p.turn δ) (fitStep c.p (v t).step) (v' t) a
      = horizonOf c.q c.p (fitStep c.p (v t).step) (v t) a := fun t => by
    unfold horizonOf; rw [ph]; rfl
  have hb : ∀ t, horizonAbsOf c.q (c.p.turn δ) (fitStep c.p (v t).step) (v' t) a
      = horizonAbsOf c.q c.p (fitStep c.p (v t).step) (v t) a := fun t => by
    unfold horizonAbsOf faoiHorizonFront faoiHorizonBack; rw [ph, e1]; rfl
  unfold transformParams
  simp only [show (c.turn δ).kind = c.kind from rfl, show (c.turn δ).q = c.q from rfl,
    show (c.turn δ).p = c.p.turn δ from rfl, d, ci, fa, at', g, rh, ph, ho, hb]
  rfl

theorem fitDict_turn {δ : ℝ} {c : EngineCfg} {n : ℕ} {v v' : Fin n → IrrIn}
    (h : ∀ t, TurnedIn δ (v t) (v' t)) : fitDict (c.turn δ) v' = fitDict c v := by
  funext a
  unfold fitDict
  rw [transformParams_turn h]

/-- Results are the same and angles are turned. -/
inductive TurnedState (δ : ℝ) : EngineState → EngineState → Prop where
  | new (vf vfAoi : Option TsMatrix) : TurnedState δ ⟨none, vf, vfAoi⟩ ⟨none, vf, vfAoi⟩
  | fitted {n : ℕ} (u u' : Fin n → StepIn) (attrs : Fin n → IrrAttrs) (dict : SurfRef → Params n)
      (vf vfAoi : Option TsMatrix) (h : ∀ t, TurnedStep δ (u t) (u' t)) :
      TurnedState δ ⟨some ⟨n, u, attrs, dict⟩, vf, vfAoi⟩ ⟨some ⟨n, u', attrs, dict⟩, vf, vfAoi⟩

theorem TurnedState.same {δ : ℝ} {s s' : EngineState} (h : TurnedState δ s s') :
    SameResults s s' := by
  cases h
  · exact .new _ _
  · exact .fitted _ _ _ _ _ _

theorem turned_fit {δ : ℝ} {c : EngineCfg} {s s' : EngineState} (h : TurnedState δ s s') {n : ℕ}
    {v v' : Fin n → IrrIn} (hv : ∀ t, TurnedIn δ (v t) (v' t)) :
    TurnedState δ (engineFit c s v) (engineFit (c.turn δ) s' v') := by
  unfold engineFit
  have e : (fun t => irrAttrs (c.turn δ).kind (c.turn δ).q (v' t))
      = fun t => irrAttrs c.kind c.q (v t) := funext fun t => irrAttrs_turn (hv t)
  rw [fitDict_turn hv, e]
  cases h <;> exact .fitted _ _ _ _ _ _ fun t => (hv t).step

theorem turned_full {δ : ℝ} {c : EngineCfg} {s s' : EngineState} (h : TurnedState δ s s') :
    TurnedState δ (engineFull c s).1 (engineFull (c.turn δ) s').1 ∧
      (engineFull (c.turn δ) s').2 = (engineFull c s).2 := by
  cases h with
  | new => exact ⟨.new _ _, rfl⟩
  | @fitted n u u' attrs dict vf vfAoi h =>
    have hr : runFullMode (c.turn δ).p u' (Fitted.read ⟨u', attrs, dict⟩ (c.turn δ).kind)
        (aoiAsg (c.turn δ).aoi (c.turn δ).p u')
        = runFullMode c.p u (Fitted.read ⟨u, attrs, dict⟩ c.kind) (aoiAsg c.aoi c.p u) := by
      rw [show (c.turn δ).p = c.p.turn δ from rfl, aoiAsg_turn _ _ _ _ h]
      unfold runFullMode
      rw [C71_view_factors δ c.p u u' h]
      rfl
    have hv : tsVfMatrix (c.turn δ).p u' = tsVfMatrix c.p u := C71_view_factors δ c.p u u' h
    unfold engineFull
    dsimp only
    by_cases hp : Fitted.hasParams ⟨u, attrs, dict⟩ (allRefs c.p)
        (c.kind.comp ++ c.kind.compAbsorbed ++ [.rho, .invRho, .totalPerez])
    · have hp' : Fitted.hasParams ⟨u', attrs, dict⟩ (allRefs (c.turn δ).p)
        ((c.turn δ).kind.comp ++ (c.turn δ).kind.compAbsorbed ++ [.rho, .invRho, .totalPerez]) := hp
      rw [if_pos hp, if_pos hp', hr, hv]
      cases runFullMode c.p u (Fitted.read ⟨u, attrs, dict⟩ c.kind) (aoiAsg c.aoi c.p u) with
      | none => exact ⟨.fitted _ _ _ _ _ _ h, rfl⟩
      | some o => exact ⟨.fitted _ _ _ _ _ _ h, rfl⟩
    · have hp' : ¬ Fitted.hasParams ⟨u', attrs, dict⟩ (allRefs (c.turn δ).p)
        ((c.turn δ).kind.comp ++ (c.turn δ).kind.compAbsorbed ++ [.rho, .invRho, .totalPerez]) := hp
      rw [if_neg hp, if_neg hp']
      exact ⟨.fitted _ _ _ _ _ _ h, rfl⟩

theorem turned_writeFasts {δ : ℝ} {c : EngineCfg} {n : ℕ} {u u' : Fin n → StepIn}
    (h : ∀ t, TurnedStep δ (u t) (u' t)) (i : ℤ) (l : List SurfRef) (attrs : Fin n → IrrAttrs)
    (dict : SurfRef → Params n) : ∃ d,
      l.foldl (fun (f : Fitted n) a => f.writeFast c i a) ⟨u, attrs, dict⟩ = ⟨u, attrs, d⟩ ∧
      l.foldl (fun (f : Fitted n) a => f.writeFast (c.turn δ) i a) ⟨u', attrs, dict⟩
        = ⟨u', attrs, d⟩ := by
  induction l generalizing dict with
  | nil => exact ⟨dict, rfl, rfl⟩
  | cons a l ih =>
    simp only [List.foldl_cons]
    have e : Fitted.writeFast ⟨u', attrs, dict⟩ (c.turn δ) i a
        = { Fitted.writeFast ⟨u, attrs, dict⟩ c i a with u := u' } := by
      unfold Fitted.writeFast
      have g : ∀ t, fitStep (c.turn δ).p (u' t) = fitStep c.p (u t) :=
        fun t => C71_geometry δ c.p _ _ (h t)
      simp only [g]
      rfl
    rw [e]
    exact ih _

theorem turned_fast {δ : ℝ} {c : EngineCfg} {s s' : EngineState} (h : TurnedState δ s s')
    (row segment : Option ℤ) :
    TurnedState δ (engineFast c s row segment).1 (engineFast (c.turn δ) s' row segment).1 ∧
      (engineFast (c.turn δ) s' row segment).2 = (engineFast c s row segment).2 := by
  cases h with
  | new => exact ⟨.new _ _, rfl⟩
  | @fitted n u u' attrs dict vf vfAoi h =>
    unfold engineFast
    simp only [show (c.turn δ).fastRow = c.fastRow from rfl,
      show (c.turn δ).fastSegment = c.fastSegment from rfl]
    cases (if row.isNone = true then c.fastRow else row) with
    | none => exact ⟨.fitted _ _ _ _ _ _ h, rfl⟩
    | some i =>
      dsimp only
      rw [show (if segment.isNone = true then (c.turn δ).fastSegment else segment)
        = if segment.isNone = true then c.fastSegment else segment from rfl]
      generalize (if segment.isNone = true then c.fastSegment else segment) = sg
      obtain ⟨d, h1, h2⟩ := turned_writeFasts (c := c) h i (fastTargets c.p i sg) attrs dict
      by_cases hp : fastIndexOk c.p i sg ∧
          Fitted.hasParams ⟨u, attrs, dict⟩ (fastTargets c.p i sg) c.kind.comp
      · have hp' : fastIndexOk (c.turn δ).p i sg ∧ Fitted.hasParams ⟨u', attrs, dict⟩
            (fastTargets (c.turn δ).p i sg) (c.turn δ).kind.comp := hp
        rw [if_pos hp, if_pos hp', h1, show fastTargets (c.turn δ).p i sg = fastTargets c.p i sg
          from rfl, h2]
        exact ⟨.fitted _ _ _ _ _ _ h, rfl⟩
      · have hp' : ¬ (fastIndexOk (c.turn δ).p i sg ∧ Fitted.hasParams ⟨u', attrs, dict⟩
            (fastTargets (c.turn δ).p i sg) (c.turn δ).kind.comp) := hp
        rw [if_neg hp, if_neg hp']
        exact ⟨.fitted _ _ _ _ _ _ h, rfl⟩

theorem turned_step {δ : ℝ} {c : EngineCfg} {s s' : EngineState} (h : TurnedState δ s s')
    {op op' : EngineOp} (ho : TurnedOp δ op op') :
    TurnedState δ (engineStep c s op).1 (engineStep (c.turn δ) s' op').1 ∧
      (engineStep (c.turn δ) s' op').2 = (engineStep c s op).2 := by
  cases ho with
  | fit v v' hv => exact ⟨turned_fit h hv, rfl⟩
  | full => exact turned_full h
  | fast row segment => exact turned_fast h row segment

theorem turned_run {δ : ℝ} {c : EngineCfg} {ops ops' : List EngineOp}
    (ho : List.Forall₂ (TurnedOp δ) ops ops') {s s' : EngineState} (h : TurnedState δ s s') :
    TurnedState δ (engineRun c s ops) (engineRun (c.turn δ) s' ops') := by
  induction ho generalizing s s' with
  | nil => exact h
  | cons h1 _ ih => exact ih (turned_step h h1).1

/-- C71: after any sequence of calls on a new engine, turning the rows, and the modules and the sun
in all calls, by the same angle changes no result, and each further call returns or fails alike. -/
theorem C71_engine (δ : ℝ) (c : EngineCfg) (ops ops' : List EngineOp)
    (ho : List.Forall₂ (TurnedOp δ) ops ops') :
    SameResults (engineRun c newEngine ops) (engineRun (c.turn δ) newEngine ops') ∧
    ∀ op op', TurnedOp δ op op' →
      (engineStep (c.turn δ) (engineRun (c.turn δ) newEngine ops') op').2
        = (engineStep c (engineRun c newEngine ops) op).2 := by
  have h : TurnedState δ newEngine newEngine := .new _ _
  exact ⟨(turned_run ho h).same, fun op op' hop => (turned_step (turned_run ho h) hop).2⟩

/-! ## Runs -/

variable {τ : Type} [Inhabited τ]

theorem cosd_flip (r : PerezIn) :
    cosd (r.flip.solarAzimuth - r.flip.surfaceAzimuth)
      = - cosd (r.solarAzimuth - r.surfaceAzimuth) := by
  have h : cosd (r.solarAzimuth - pyMod (r.surfaceAzimuth - 180) 360)
      = cosd (r.solarAzimuth - (r.surfaceAzimuth - 180)) :=
    SameDir.cosd_sub (δ := 0) ⟨0, by simp⟩ ⟨-⌊(r.surfaceAzimuth - 180) / 360⌋, by
      unfold pyMod; push_cast; ring⟩
  have e : r.solarAzimuth - (r.surfaceAzimuth - 180) = (r.solarAzimuth - r.surfaceAzimuth) + 180 := by
    ring
  show cosd (r.solarAzimuth - pyMod (r.surfaceAzimuth - 180) 360) = _
  rw [h, e, cosd_add_180]

theorem aoiProjection_congr {r r' : PerezIn} (ht : r'.surfaceTilt = r.surfaceTilt)
    (hz : r'.solarZenith = r.solarZenith)
    (h : cosd (r'.solarAzimuth - r'.surfaceAzimuth) = cosd (r.solarAzimuth - r.surfaceAzimuth)) :
    aoiProjection r'.surfaceTilt r'.surfaceAzimuth r'.solarZenith r'.solarAzimuth
      = aoiProjection r.surfaceTilt r.surfaceAzimuth r.solarZenith r.solarAzimuth := by
  unfold aoiProjection
  rw [h, ht, hz]

theorem ownOut_congr {P : Pvlib τ} (hP : DependsOnDifference P) {r r' : PerezIn}
    (hr : r' = { r with surfaceAzimuth := r'.surfaceAzimuth, solarAzimuth := r'.solarAzimuth })
    (h : cosd (r'.solarAzimuth - r'.surfaceAzimuth) = cosd (r.solarAzimuth - r.surfaceAzimuth)) :
    r'.ownOut P.perez = r.ownOut P.perez := by
  have e1 : P.perez r' = P.perez r := by rw [hr]; exact hP.perez r _ _ h
  have ht : r'.surfaceTilt = r.surfaceTilt := by rw [hr]
  have hz : r'.solarZenith = r.solarZenith := by rw [hr]
  unfold PerezIn.ownOut
  rw [e1, aoiProjection_congr ht hz h, ht, hz]

open Classical in
theorem inputAt_turn {δ : ℝ} {P : Pvlib τ} (hP : DependsOnDifference P) {a a' : RunArgs τ}
    (h : TurnedArgs δ a a') (i : ℕ) (hs : i < a.solarAzimuth.length)
    (hm : i < a.surfaceAzimuth.length) : TurnedIn δ (inputAt P a i) (inputAt P a' i) := by
  refine ⟨h.sun i hs, h.surface i hm, ?_⟩
  have hc := (h.sun i hs).cosd_sub (h.surface i hm)
  have e1 : a'.dni = a.dni := by rw [h.rest]
  have e2 : a'.dhi = a.dhi := by rw [h.rest]
  have e3 : a'.solarZenith = a.solarZenith := by rw [h.rest]
  have e4 : a'.surfaceTilt = a.surfaceTilt := by rw [h.rest]
  have e5 : a'.albedo = a.albedo := by rw [h.rest]
  have e6 : a'.ghi = a.ghi := by rw [h.rest]
  have e7 : a'.timestamps = a.timestamps := by rw [h.rest]
  have e8 : a'.albedoList = a.albedoList := by unfold RunArgs.albedoList; rw [e5, e1]
  set r := a.perezIn P i with hr
  set r' := a'.perezIn P i with hr'
  have hrr : r' = { r with surfaceAzimuth := r'.surfaceAzimuth, solarAzimuth := r'.solarAzimuth } := by
    simp only [hr, hr', RunArgs.perezIn, e1, e2, e3, e4, e7]
  have ht : r'.surfaceTilt = r.surfaceTilt := by rw [hrr]
  have hz : r'.solarZenith = r.solarZenith := by rw [hrr]
  have hcr : cosd (r'.solarAzimuth - r'.surfaceAzimuth)
      = cosd (r.solarAzimuth - r.surfaceAzimuth) := hc
  have hb : r'.hitsBack ↔ r.hitsBack := by
    unfold PerezIn.hitsBack
    rw [aoiProjection_congr ht hz hcr, hz]
  have o1 := ownOut_congr hP hrr hcr
  have o2 : r'.flip.ownOut P.perez = r.flip.ownOut P.perez := by
    refine ownOut_congr hP ?_ (by rw [cosd_flip, cosd_flip, hcr])
    rw [hrr]; rfl
  have hperez : (inputAt P a' i).perez = (inputAt P a i).perez := by
    show (if r'.hitsBack then
        { r'.ownOut P.perez with
          luminanceCircumsolar := (r'.flip.ownOut P.perez).luminanceCircumsolar }
      else r'.ownOut P.perez) = (if r.hitsBack then
        { r.ownOut P.perez with
          luminanceCircumsolar := (r.flip.ownOut P.perez).luminanceCircumsolar }
      else r.ownOut P.perez)
    rw [o1, o2]
    exact if_congr hb rfl rfl
  have hpoa : (inputAt P a' i).poaGlobal = (inputAt P a i).poaGlobal := by
    simp only [inputAt, e1, e2, e3, e4, e6, e8]
    exact hP.poaGlobal _ _ _ _ _ _ _ _ _ _ hc
  have : inputAt P a' i = ⟨(inputAt P a' i).dni, (inputAt P a' i).dhi, (inputAt P a' i).solarZenith,
      (inputAt P a' i).solarAzimuth, (inputAt P a' i).surfaceTilt, (inputAt P a' i).surfaceAzimuth,
      (inputAt P a' i).albedo, (inputAt P a' i).ghi, (inputAt P a' i).poaGlobal,
      (inputAt P a' i).perez⟩ := rfl
  rw [this, hperez, hpoa]
  simp only [inputAt, e1, e2, e3, e4, e6, e8]

theorem exampleValue_turn {δ : ℝ} (p : ArrayParams) (key : String) (sd : RowSide) (k : PName)
    (v v' : StepView) (hu : TurnedStep δ v.u v'.u) (hd : v'.dict = v.dict) :
    (exampleField (p.turn δ) key sd k).value v' = (exampleField p key sd k).value v := by
  show sideWeighted (fun a => ((fitStep (p.turn δ) v'.u).coords a).length)
      (fun a => (v'.dict a k).getD 0) (sideColl p 1 sd)
    = sideWeighted (fun a => ((fitStep p v.u).coords a).length)
      (fun a => (v.dict a k).getD 0) (sideColl p 1 sd)
  rw [C71_geometry δ p _ _ hu, hd]

theorem TurnedState.views {δ : ℝ} {s s' : EngineState} (h : TurnedState δ s s') (p : ArrayParams)
    (key : String) (sd : RowSide) (k : PName) :
    s'.views.map (exampleField (p.turn δ) key sd k).value
      = s.views.map (exampleField p key sd k).value := by
  cases h with
  | new => simp [EngineState.views]
  | @fitted n u u' attrs dict vf vfAoi h =>
    simp only [EngineState.views, List.map_ofFn]
    congr 1
    funext t
    exact exampleValue_turn p key sd k _ _ (h t) rfl

theorem TurnedState.has {δ : ℝ} {s s' : EngineState} (h : TurnedState δ s s') (a : SurfRef)
    (k : PName) : s'.has a k = s.has a k := by
  cases h <;> rfl

open Classical in
theorem exampleBuild_turn {δ : ℝ} {s s' : EngineState} (h : TurnedState δ s s') (p : ArrayParams) :
    (exampleBuilder (p.turn δ)).build s' = (exampleBuilder p).build s := by
  unfold Builder.build
  refine if_congr ?_ ?_ rfl
  · simp only [TurnedState.has h, exampleBuilder, List.forall_mem_cons, nRows_turn,
      show ∀ key sd k, (exampleField (p.turn δ) key sd k).needs = (exampleField p key sd k).needs
        from fun _ _ _ => rfl, List.not_mem_nil, false_imp_iff, implies_true]
    exact Iff.rfl
  · simp only [exampleBuilder, List.map_cons, List.map_nil, TurnedState.views h,
      show ∀ p' key sd k, (exampleField p' key sd k).key = key from fun _ _ _ _ => rfl]

/-- C71: a run with rows, modules and sun turned by the same angle gives the same example report
(or fails alike), in full mode and in fast mode. -/
theorem C71_run (δ : ℝ) (P : Pvlib τ) (hP : DependsOnDifference P) (c : EngineCfg)
    (a a' : RunArgs τ) (h : TurnedArgs δ a a') :
    runSerial P (c.turn δ) (exampleBuilder (c.p.turn δ)) a'
      = runSerial P c (exampleBuilder c.p) a := by
  classical
  have e1 : a'.dni = a.dni := by rw [h.rest]
  have hal : a'.Aligned ↔ a.Aligned := by
    have e2 : a'.dhi = a.dhi := by rw [h.rest]
    have e3 : a'.solarZenith = a.solarZenith := by rw [h.rest]
    have e4 : a'.surfaceTilt = a.surfaceTilt := by rw [h.rest]
    have e5 : a'.albedo = a.albedo := by rw [h.rest]
    have e6 : a'.ghi = a.ghi := by rw [h.rest]
    have e7 : a'.timestamps = a.timestamps := by rw [h.rest]
    unfold RunArgs.Aligned RunArgs.albedoList
    rw [h.sunLength, h.surfaceLength, e1, e2, e3, e4, e5, e6, e7]
  by_cases ha : a.Aligned
  · have ha' := hal.2 ha
    unfold runSerial
    rw [inputs_eq P a ha, inputs_eq P a' ha', e1]
    by_cases hne : a.dni ≠ [] ∨ P.emptyOk = true
    · rw [if_pos hne, if_pos hne]
      dsimp only
      have key : ∀ (l l' : List IrrIn), List.Forall₂ (TurnedIn δ) l l' →
          (let st := engineFit (c.turn δ) newEngine (fun t : Fin l'.length => l'.get t)
            let r := if (c.turn δ).fastRow.isNone then engineFull (c.turn δ) st
              else engineFast (c.turn δ) st none none
            if r.2 then (exampleBuilder (c.p.turn δ)).build r.1 else none)
          = (let st := engineFit c newEngine (fun t : Fin l.length => l.get t)
            let r := if c.fastRow.isNone then engineFull c st else engineFast c st none none
            if r.2 then (exampleBuilder c.p).build r.1 else none) := by
        intro l l' hl
        have hlen := hl.length_eq
        have hfit : TurnedState δ (engineFit c newEngine (fun t : Fin l.length => l.get t))
            (engineFit (c.turn δ) newEngine (fun t : Fin l'.length => l'.get t)) := by
          obtain ⟨l'', hl''⟩ : ∃ f : Fin l.length → IrrIn, (engineFit (c.turn δ) newEngine
              (fun t : Fin l'.length => l'.get t)) = engineFit (c.turn δ) newEngine f ∧
              ∀ t, TurnedIn δ (l.get t) (f t) := by
            refine ⟨fun t => l'.get (t.cast hlen), ?_, fun t => ?_⟩
            · have : ∀ (m : ℕ) (e : m = l'.length), engineFit (c.turn δ) newEngine
                  (fun t : Fin l'.length => l'.get t)
                  = engineFit (c.turn δ) newEngine fun t : Fin m => l'.get (t.cast e) := by
                rintro m rfl; rfl
              exact this _ hlen
            · exact List.Forall₂.get hl t.2 (by rw [← hlen]; exact t.2)
          rw [hl''.1]
          exact turned_fit (.new _ _) hl''.2
        dsimp only
        rw [show (c.turn δ).fastRow = c.fastRow from rfl]
        split_ifs with hf h1 h2 h2
        · exact exampleBuild_turn (turned_full hfit).1 c.p
        · rw [(turned_full hfit).2] at h1; exact absurd h1 h2
        · rw [(turned_full hfit).2] at h1; exact absurd h2 h1
        · rfl
        · exact exampleBuild_turn (turned_fast hfit none none).1 c.p
        · rw [(turned_fast hfit none none).2] at *; contradiction
        · rw [(turned_fast hfit none none).2] at *; contradiction
        · rfl
      refine key _ _ ?_
      rw [List.forall₂_map_left_iff, List.forall₂_map_right_iff, List.forall₂_same]
      intro i hi
      have hi := List.mem_range.1 hi
      exact inputAt_turn hP h i (by rw [ha.2.2.2.1]; exact hi) (by rw [ha.2.2.2.2.2.1]; exact hi)
    · rw [if_neg hne, if_neg hne]
  · have ha' := fun x => ha (hal.1 x)
    have n1 : a.inputs P = none := by
      unfold RunArgs.inputs; rw [if_neg fun x => ha x.1]
    have n2 : a'.inputs P = none := by
      unfold RunArgs.inputs; rw [if_neg fun x => ha' x.1]
    unfold runSerial
    rw [n1, n2]

theorem cosIncidence_congr {tilt zenith az sun az' sun' : ℝ}
    (h : cosd (sun' - az') = cosd (sun - az)) :
    cosIncidence tilt az' zenith sun' = cosIncidence tilt az zenith sun := by
  have e : ∀ az sun, cosIncidence tilt az zenith sun = cosd tilt * cosd zenith
      + sind tilt * sind zenith * cosd (sun - az) := by
    intro az sun
    have hd : cosd (sun - az) = cosd sun * cosd az + sind sun * sind az := by
      unfold cosd sind
      rw [show deg2rad (sun - az) = deg2rad sun - deg2rad az by unfold deg2rad; ring, Real.cos_sub]
    rw [hd]
    simp only [cosIncidence, surfaceNormal, sunVector, Fin.sum_univ_three, Matrix.cons_val_zero,
      Matrix.cons_val_one, Matrix.cons_val]
    ring
  rw [e, e, h]

/-- The condition on pvlib is met by transposition with an isotropic sky together with Perez' model,
if the coefficients of the latter do not depend on azimuths. -/
theorem dependsOnDifference {P : Pvlib τ} (hT : IsotropicTransposition P.poaGlobal)
    {F1 F2 : PerezIn → ℝ} (hP : P.perez = perezWith F1 F2)
    (h1 : ∀ r az az', F1 { r with surfaceAzimuth := az, solarAzimuth := az' } = F1 r)
    (h2 : ∀ r az az', F2 { r with surfaceAzimuth := az, solarAzimuth := az' } = F2 r) :
    DependsOnDifference P where
  perez := by
    intro r az az' h
    rw [hP]
    unfold perezWith perezDome perezSun perezBand
    simp only [h1, h2]
    rw [cosIncidence_congr h]
  poaGlobal := by
    intro tilt zenith dni ghi dhi albedo az sun az' sun' h
    rw [hT, hT, cosIncidence_congr h]

/-- C71 in a concrete case: five time steps, everything turned by 100 degrees, azimuths of the sun
given as negative angles.  Both runs return the same report; turning only the rows instead changes
the geometry. -/
theorem C71_demo : ∃ r : Report,
    runSerial demoPvlib vertCfg (exampleBuilder vertArray) demoArgs = some r ∧
    runSerial demoPvlib (vertCfg.turn 100) (exampleBuilder (vertArray.turn 100))
      { demoArgs with surfaceAzimuth := List.replicate 5 370, solarAzimuth := List.replicate 5 (-350) }
      = some r ∧
    (∀ e ∈ r, e.2.length = 5) ∧
    fitStep (vertArray.turn 100) vertStep ≠ fitStep vertArray vertStep := by
  obtain ⟨r, hr, -, -, hl⟩ := C13_demo
  refine ⟨r, hr, ?_, hl, ?_⟩
  · rw [← hr]
    refine C71_run 100 demoPvlib ⟨fun _ _ _ _ => rfl, fun _ _ _ _ _ _ _ _ _ _ _ => rfl⟩ vertCfg
      demoArgs _ ⟨rfl, rfl, ?_, ?_, rfl⟩
    · intro i hi
      have hi : i < 5 := hi
      refine ⟨-2, ?_⟩
      simp only [demoArgs, List.getD_replicate _ hi]
      norm_num
    · intro i hi
      have hi : i < 5 := hi
      refine ⟨0, ?_⟩
      simp only [demoArgs, List.getD_replicate _ hi]
      norm_num
  · intro h
    have h := congrArg (fun g => g.rot.deg) h
    have e1 : (fitStep vertArray vertStep).rot.deg = 90 := by
      have := vert_rot
      show (rotationFromTiltAzimuth vertStep.surfaceAzimuth vertArray.axisAzimuth
        vertStep.surfaceTilt).deg = 90
      rw [this]
    have e2 : (fitStep (vertArray.turn 100) vertStep).rot.deg = -90 := by
      show (rotationFromTiltAzimuth 270 (0 + 100) 90).deg = -90
      have : ⌊(270 - (0 + 100) : ℝ) / 360⌋ = 0 := by rw [Int.floor_eq_zero_iff]; norm_num
      unfold rotationFromTiltAzimuth pyMod
      rw [this]
      norm_num
    simp only [e1, e2] at h
    norm_num at h

end PVF

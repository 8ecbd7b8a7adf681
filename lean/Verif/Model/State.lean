import Verif.Model.Fast
import Verif.Model.AOI

/-!
# The engine as an object with state (engine.py, with the parameter dictionaries of the surfaces)

The engine, its PV array, its irradiance model and its view factor calculator are mutable objects.
This module models what `fit`, `run_full_mode` and `run_fast_mode` read from them and write to them.
-/

namespace PVF
noncomputable section

/-- The keys of the parameter dictionaries of surfaces (`ts_surface.params`) that the package
reads or writes: pvfactors/irradiance/models.py lines 201-252, 647-746, pvfactors/engine.py
lines 256-261, 373-382 and pvfactors/irradiance/base.py line 137.  The key `view_factors`
(pvfactors/engine.py line 382), whose value is a dictionary that the package never reads, is left
out. -/
inductive PName where
  | direct | circumsolar | horizon | rho | invRho | totalPerez
  | directAbsorbed | circumsolarAbsorbed | horizonAbsorbed | horizonUnshaded | horizonShdPct
  | q0 | qinc | isotropic | reflection | qabs
  | skyTerm | reflectionGndShaded | reflectionGndIllum | reflectionPvrowShaded
  | reflectionPvrowIllum
  deriving DecidableEq

/-- The dictionary of one surface: an array over the `n` time steps for each key. -/
abbrev Params (n : ℕ) := PName → Option (Fin n → ℝ)

/-- `dict.update`. -/
def Params.update {n : ℕ} (d : Params n) (new : List (PName × (Fin n → ℝ))) : Params n :=
  new.foldl (fun d kv => Function.update d kv.1 (some kv.2)) d

/-- The two irradiance models of pvfactors/irradiance/models.py. -/
inductive IrrKind where
  | isotropic
  | hybridPerez

/-- `irradiance_comp`: pvfactors/irradiance/models.py lines 25, 403. -/
def IrrKind.comp : IrrKind → List PName
  | .isotropic => [.direct]
  | .hybridPerez => [.direct, .circumsolar, .horizon]

/-- `irradiance_comp_absorbed`: pvfactors/irradiance/models.py lines 26, 404-405. -/
def IrrKind.compAbsorbed : IrrKind → List PName
  | .isotropic => [.directAbsorbed]
  | .hybridPerez => [.directAbsorbed, .circumsolarAbsorbed, .horizonAbsorbed]

/-- Angles of a time step, as given to `OrderedPVArray.fit`: pvfactors/engine.py lines 158-159. -/
def IrrIn.step (v : IrrIn) : StepIn :=
  ⟨v.solarZenith, v.solarAzimuth, v.surfaceTilt, v.surfaceAzimuth⟩

/-- Attributes of a fitted irradiance model that the engine reads directly:
pvfactors/engine.py lines 197-198, 340-347. -/
structure IrrAttrs where
  sky : ℝ
  albedo : ℝ
  rhoFront : ℝ
  gndShaded : ℝ
  gndIllum : ℝ
  pvrowShaded : ℝ
  pvrowIllum : ℝ

/-- `fit` of the irradiance models, as far as the attributes above are concerned:
pvfactors/irradiance/models.py lines 84-185 and 480-624. -/
def irrAttrs (k : IrrKind) (q : IrrParams) (v : IrrIn) : IrrAttrs :=
  let direct := directCats q v
  let circ := circumsolarCats q v
  match k with
  | .isotropic =>
    { sky := v.dhi, albedo := v.albedo, rhoFront := q.rhoFront
      gndShaded := v.dhi + direct.groundShaded
      gndIllum := v.ghiUsed
      pvrowShaded := v.poaGlobal - direct.frontIllum
      pvrowIllum := v.poaGlobal }
  | .hybridPerez =>
    { sky := v.perez.luminanceIsotropic, albedo := v.albedo, rhoFront := q.rhoFront
      gndShaded := v.dhi - circ.groundIllum + circ.groundShaded + direct.groundShaded
      gndIllum := v.ghiUsed
      pvrowShaded := v.poaGlobal - direct.frontIllum - circ.frontIllum
        + direct.frontShaded + circ.frontShaded
      pvrowIllum := v.poaGlobal }

/-- Value of `total_perez` of a surface: pvfactors/irradiance/models.py lines 205-248, 654-736. -/
def totalPerezOf (t : IrrAttrs) : SurfRef → ℝ
  | .gnd true _ _ => t.gndShaded
  | .gnd false _ _ => t.gndIllum
  | .pv _ .front _ true => t.pvrowShaded
  | .pv _ .front _ false => t.pvrowIllum
  | .pv _ .back _ _ => 0

/-- What does not change in the life of an engine object: pvfactors/engine.py lines 42-53. -/
structure EngineCfg where
  p : ArrayParams
  kind : IrrKind
  q : IrrParams
  aoi : Option AOIMethods
  fastRow : Option ℤ
  fastSegment : Option ℤ

/-- What `fit` sets: the geometry (given by the angles), the attributes of the irradiance model and
the dictionaries of the surfaces. -/
structure Fitted (n : ℕ) where
  u : Fin n → StepIn
  attrs : Fin n → IrrAttrs
  dict : SurfRef → Params n

/-- A matrix for each of `n` time steps. -/
abbrev TsMatrix := Σ n : ℕ, Fin n → ℕ → ℕ → ℝ

/-- State of an engine: pvfactors/engine.py lines 52-53, pvfactors/geometry/pvarray.py lines 62-72.
`vf` and `vfAoi` are `pvarray.ts_vf_matrix` and `pvarray.ts_vf_aoi_matrix`. -/
structure EngineState where
  fitted : Option (Σ n : ℕ, Fitted n)
  vf : Option TsMatrix
  vfAoi : Option TsMatrix

/-- A new engine: pvfactors/engine.py lines 42-53. -/
def newEngine : EngineState := ⟨none, none, none⟩

/-- What `transform` writes to the dictionary of a surface: pvfactors/irradiance/models.py lines
187-252 (isotropic), 626-746 (hybrid Perez).  References that are not surfaces of the array are given
values too; nothing reads them. -/
def transformParams (c : EngineCfg) {n : ℕ} (v : Fin n → IrrIn) (a : SurfRef) :
    List (PName × (Fin n → ℝ)) :=
  match c.kind with
  | .isotropic =>
    [(.direct, fun t => (directCats c.q (v t)).get a), (.rho, fun t => rhoOf c.q (v t) a),
     (.invRho, fun t => 1 / rhoOf c.q (v t) a),
     (.totalPerez, fun t => totalPerezOf (irrAttrs .isotropic c.q (v t)) a),
     (.directAbsorbed, fun t => faoiDirectOf c.q (v t) a * (directCats c.q (v t)).get a)]
  | .hybridPerez =>
    [(.direct, fun t => (directCats c.q (v t)).get a),
     (.circumsolar, fun t => (circumsolarCats c.q (v t)).get a),
     (.horizon, fun t => horizonOf c.q c.p (fitStep c.p (v t).step) (v t) a),
     (.rho, fun t => rhoOf c.q (v t) a), (.invRho, fun t => 1 / rhoOf c.q (v t) a),
     (.totalPerez, fun t => totalPerezOf (irrAttrs .hybridPerez c.q (v t)) a),
     (.directAbsorbed, fun t => faoiDirectOf c.q (v t) a * (directCats c.q (v t)).get a),
     (.circumsolarAbsorbed,
      fun t => faoiDirectOf c.q (v t) a * (circumsolarCats c.q (v t)).get a),
     (.horizonAbsorbed, fun t => horizonAbsOf c.q c.p (fitStep c.p (v t).step) (v t) a)]
    ++ (match a with
      | .pv r .back s sh =>
        [(.horizonUnshaded, fun t => poaHorizonUsed (v t)),
         (.horizonShdPct, fun t => horizonShadingPct c.q c.p (fitStep c.p (v t).step)
           ((fitStep c.p (v t).step).coords (.pv r .back s sh)).centroid r true)]
      | _ => [])

/-- The dictionary of a surface after `fit`.  `pvarray.fit` makes new surface objects with empty
dictionaries (pvfactors/geometry/pvarray.py lines 191, 221-226, 169-172; the keys in `param_names`
have the value `None`, as good as missing), then `transform` updates them (pvfactors/engine.py
line 166). -/
def fitDict (c : EngineCfg) {n : ℕ} (v : Fin n → IrrIn) (a : SurfRef) : Params n :=
  Params.update (fun _ => none) (transformParams c v a)

/-- `PVEngine.fit`: pvfactors/engine.py lines 108-175.  Everything that the run modes use is
replaced; the stored matrices of earlier runs stay.  `skip_step` (lines 171-175), which nothing
reads, is left out, and so is the error raised for arrays without rows. -/
def engineFit (c : EngineCfg) (st : EngineState) {n : ℕ} (v : Fin n → IrrIn) : EngineState :=
  { st with fitted := some ⟨n,
      { u := fun t => (v t).step
        attrs := fun t => irrAttrs c.kind c.q (v t)
        dict := fitDict c v }⟩ }

/-- `ts_surface.get_param(name)` at a time step (zero if missing: see `hasParams`). -/
def Fitted.param {n : ℕ} (f : Fitted n) (a : SurfRef) (k : PName) (t : Fin n) : ℝ :=
  ((f.dict a k).map fun x => x t).getD 0

/-- No `KeyError` when the run modes read the parameters of the surfaces in `l`. -/
def Fitted.hasParams {n : ℕ} (f : Fitted n) (l : List SurfRef) (keys : List PName) : Prop :=
  ∀ a ∈ l, ∀ k ∈ keys, (f.dict a k).isSome

/-- What the run modes read from the dictionaries of the surfaces and from the irradiance model:
`get_ts_modeling_vectors`, `get_summed_components`, `update_ts_surface_sky_term`
(pvfactors/irradiance/base.py lines 83-92, 112-121, 134-136), pvfactors/engine.py lines 340-347. -/
def Fitted.read {n : ℕ} (f : Fitted n) (k : IrrKind) (t : Fin n) : IrrStep where
  comp := fun a => k.comp.map fun c => f.param a c t
  compAbs := fun a => k.compAbsorbed.map fun c => f.param a c t
  rho := fun a => f.param a .rho t
  invRho := fun a => f.param a .invRho t
  totalPerez := fun a => f.param a .totalPerez t
  sky := (f.attrs t).sky
  albedo := (f.attrs t).albedo
  rhoFront := (f.attrs t).rhoFront
  gndShaded := (f.attrs t).gndShaded
  gndIllum := (f.attrs t).gndIllum
  pvrowShaded := (f.attrs t).pvrowShaded
  pvrowIllum := (f.attrs t).pvrowIllum

/-- The dictionaries after the loop of pvfactors/engine.py lines 254-261. -/
def Fitted.writeFull {n : ℕ} (f : Fitted n) (p : ArrayParams) (o : Fin n → FullOut) : Fitted n :=
  { f with dict := (allRefs p).foldl (fun d a => Function.update d a ((d a).update
      [(.q0, fun t => (o t).q0 a), (.qinc, fun t => (o t).qinc a),
       (.isotropic, fun t => (o t).isotropic a), (.reflection, fun t => (o t).reflection a),
       (.qabs, fun t => (o t).qabs a)])) f.dict }

/-- AOI assignments of an optional AOI method: pvfactors/viewfactors/calculator.py
lines 149-181. -/
def aoiAsg {ι : Type*} [Fintype ι] (m : Option AOIMethods) (p : ArrayParams) (u : ι → StepIn)
    (t : ι) : Option (List Asg) :=
  m.map fun m => asgAoiTs m p u t

open Classical in
/-- `PVEngine.run_full_mode`: pvfactors/engine.py lines 177-265.  The flag tells whether the call
returns (`true`) or raises an exception: engine not fitted, missing parameter, singular matrix (then
the view factor matrix has already been stored, line 205). -/
def engineFull (c : EngineCfg) (st : EngineState) : EngineState × Bool :=
  match st.fitted with
  | none => (st, false)
  | some ⟨n, f⟩ =>
    if f.hasParams (allRefs c.p)
        (c.kind.comp ++ c.kind.compAbsorbed ++ [.rho, .invRho, .totalPerez]) then
      match runFullMode c.p f.u (f.read c.kind) (aoiAsg c.aoi c.p f.u) with
      | none => ({ st with vf := some ⟨n, tsVfMatrix c.p f.u⟩ }, false)
      | some o =>
        ({ fitted := some ⟨n, f.writeFull c.p o⟩
           vf := some ⟨n, fun t => (o t).vf⟩, vfAoi := some ⟨n, fun t => (o t).vfAoi⟩ }, true)
    else (st, false)

/-- One surface of the loop of `_calculate_back_ts_segment_qinc`: pvfactors/engine.py
lines 349-382. -/
def Fitted.writeFast {n : ℕ} (f : Fitted n) (c : EngineCfg) (i : ℤ) (a : SurfRef) : Fitted n :=
  let o := fun t => fastSurface c.p (fitStep c.p (f.u t)) (f.read c.kind t) i a
  { f with dict := Function.update f.dict a ((f.dict a).update
      [(.skyTerm, fun t => (o t).skyTerm), (.qinc, fun t => (o t).qinc),
       (.reflectionGndShaded, fun t => (o t).reflectionGndShaded),
       (.reflectionGndIllum, fun t => (o t).reflectionGndIllum),
       (.reflectionPvrowShaded, fun t => (o t).reflectionPvrowShaded),
       (.reflectionPvrowIllum, fun t => (o t).reflectionPvrowIllum),
       (.isotropic, fun t => (o t).isotropic), (.reflection, fun t => (o t).reflection)]) }

/-- The row index is one for which `ts_pvrows[i]` and, in the view factor formulas,
`ts_pvrows[i - 1]` exist (pvfactors/engine.py line 303, pvfactors/viewfactors/vfmethods.py
lines 283-300), and the segment index one for which the segment exists (pvfactors/engine.py
line 312). -/
def fastIndexOk (p : ArrayParams) (i : ℤ) (segment : Option ℤ) : Prop :=
  (-(p.nRows : ℤ) < i ∧ i < p.nRows) ∧
  ∀ k, segment = some k → -(p.nBack (pyIdx p.nRows i) : ℤ) ≤ k ∧ k < p.nBack (pyIdx p.nRows i)

open Classical in
/-- `PVEngine.run_fast_mode` with the optional arguments `pvrow_index` and `segment_index`:
pvfactors/engine.py lines 267-319.  The flag is `false` if the call raises an exception: engine not
fitted, no row index, index out of range, missing parameter; the code raises all of these before
it writes anything. -/
def engineFast (c : EngineCfg) (st : EngineState) (row segment : Option ℤ) : EngineState × Bool :=
  match st.fitted with
  | none => (st, false)
  | some ⟨n, f⟩ =>
    match (if row.isNone then c.fastRow else row) with
    | none => (st, false)
    | some i =>
      let segment := if segment.isNone then c.fastSegment else segment
      let targets := fastTargets c.p i segment
      if fastIndexOk c.p i segment ∧ f.hasParams targets c.kind.comp then
        ({ st with fitted := some ⟨n, targets.foldl (fun f a => f.writeFast c i a) f⟩ }, true)
      else (st, false)

/-- The calls that a user can make on an engine. -/
inductive EngineOp where
  | fit {n : ℕ} (v : Fin n → IrrIn)
  | full
  | fast (row segment : Option ℤ)

/-- The state after a call and whether the call returned without exception. -/
def engineStep (c : EngineCfg) (st : EngineState) : EngineOp → EngineState × Bool
  | .fit v => (engineFit c st v, true)
  | .full => engineFull c st
  | .fast row segment => engineFast c st row segment

/-- The state after a sequence of calls (exceptions are caught by the user). -/
def engineRun (c : EngineCfg) (st : EngineState) (ops : List EngineOp) : EngineState :=
  ops.foldl (fun st op => (engineStep c st op).1) st

end
end PVF

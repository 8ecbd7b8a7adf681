import Verif.Model.State
import Verif.Model.GroundAt

/-!
# Parameter dictionaries of the time series array (geometry/timeseries.py, pvrow.py, pvground.py)

Besides the surfaces, the time series ground has one dictionary for its shaded and one for its
illuminated part, and so has each of its elements.  All of them are Python dictionaries, changed in
place; a memory holds them here.
-/

namespace PVF
noncomputable section

variable {K V : Type*} [DecidableEq K]

/-- The dictionaries of an array: `ts_ground.shaded_params` and `ts_ground.illum_params`
(pvfactors/geometry/pvground.py lines 67-68), `params` of a ground element (line 791) and `params` of
a surface (pvfactors/geometry/timeseries.py line 139). -/
inductive DictRef where
  | ground (shaded : Bool)
  | element (shaded : Bool) (e : ℕ)
  | surface (a : SurfRef)
  deriving DecidableEq

/-- The memory with all dictionaries. -/
abbrev Dicts (K V : Type*) := DictRef → K → Option V

/-- `dict.update`. -/
def dictUpdate (d : K → Option V) (new : List (K × V)) : K → Option V :=
  new.foldl (fun d kv => Function.update d kv.1 (some kv.2)) d

/-- `update` of one of the dictionaries; for surfaces `TsSurface.update_params`:
pvfactors/geometry/timeseries.py lines 220-228. -/
def Dicts.write (h : Dicts K V) (r : DictRef) (new : List (K × V)) : Dicts K V :=
  Function.update h r (dictUpdate (h r) new)

/-- `TsShadeCollection.update_params`: pvfactors/geometry/timeseries.py lines 84-93. -/
def updateColl (l : List SurfRef) (new : List (K × V)) (h : Dicts K V) : Dicts K V :=
  l.foldl (fun h a => h.write (.surface a) new) h

/-- `TsSegment.update_params`: pvfactors/geometry/pvrow.py lines 623-632. -/
def updateSegment (r : ℕ) (s : RowSide) (k : ℕ) (new : List (K × V)) (h : Dicts K V) : Dicts K V :=
  updateColl [.pv r s k true] new (updateColl [.pv r s k false] new h)

/-- `TsSide.update_params`: pvfactors/geometry/pvrow.py lines 458-467. -/
def updateSide (p : ArrayParams) (r : ℕ) (s : RowSide) (new : List (K × V)) (h : Dicts K V) :
    Dicts K V :=
  (List.range (p.nSeg r s)).foldl (fun h k => updateSegment r s k new h) h

/-- `TsPVRow.update_params`: pvfactors/geometry/pvrow.py lines 185-194. -/
def updateRow (p : ArrayParams) (r : ℕ) (new : List (K × V)) (h : Dicts K V) : Dicts K V :=
  updateSide p r .back new (updateSide p r .front new h)

/-- Number of shaded or illuminated ground elements: pvfactors/geometry/pvground.py lines 583-677. -/
def nElements (p : ArrayParams) (shaded : Bool) : ℕ := if shaded then p.nRows else p.nRows + 1

/-- `TsGround.update_illum_params` and `TsGround.update_shaded_params`:
pvfactors/geometry/pvground.py lines 321-351. -/
def updateGroundPart (p : ArrayParams) (shaded : Bool) (new : List (K × V)) (h : Dicts K V) :
    Dicts K V :=
  (List.range (nElements p shaded)).foldl
    (fun h e => (List.range (p.nRows + 1)).foldl
      (fun h z => h.write (.surface (.gnd shaded e z)) new) (h.write (.element shaded e) new))
    (h.write (.ground shaded) new)

/-- `TsGround.update_params`: pvfactors/geometry/pvground.py lines 308-319. -/
def updateGround (p : ArrayParams) (new : List (K × V)) (h : Dicts K V) : Dicts K V :=
  updateGroundPart p true new (updateGroundPart p false new h)

/-- `BasePVArray.update_params`: pvfactors/geometry/base.py lines 1231-1240. -/
def updateArray (p : ArrayParams) (new : List (K × V)) (h : Dicts K V) : Dicts K V :=
  (List.range p.nRows).foldl (fun h r => updateRow p r new h) (updateGround p new h)

/-- The loops of `transform`: pvfactors/irradiance/models.py lines 204-252 and 645-746.  `new a` is the
dictionary written for surface `a`; for the ground there are only two, whatever the surface. -/
def transformDicts (p : ArrayParams) (new : SurfRef → List (K × V)) (h : Dicts K V) : Dicts K V :=
  let side (r : ℕ) (s : RowSide) (h : Dicts K V) : Dicts K V :=
    (List.range (p.nSeg r s)).foldl (fun h k =>
      updateColl [.pv r s k true] (new (.pv r s k true))
        (updateColl [.pv r s k false] (new (.pv r s k false)) h)) h
  (List.range p.nRows).foldl (fun h r => side r .back (side r .front h))
    (updateGroundPart p true (new (.gnd true 0 0)) (updateGroundPart p false (new (.gnd false 0 0)) h))

/-- What `run_full_mode` writes to the dictionary of a surface: pvfactors/engine.py lines 256-261. -/
def fullParams {n : ℕ} (o : Fin n → FullOut) (a : SurfRef) : List (PName × (Fin n → ℝ)) :=
  [(.q0, fun t => (o t).q0 a), (.qinc, fun t => (o t).qinc a),
   (.isotropic, fun t => (o t).isotropic a), (.reflection, fun t => (o t).reflection a),
   (.qabs, fun t => (o t).qabs a)]

/-- The loop of `run_full_mode` over the surfaces: pvfactors/engine.py lines 254-261. -/
def fullDicts (p : ArrayParams) {n : ℕ} (o : Fin n → FullOut) (h : Dicts PName (Fin n → ℝ)) :
    Dicts PName (Fin n → ℝ) :=
  (allRefs p).foldl (fun h a => h.write (.surface a) (fullParams o a)) h

/-- The dictionaries after `fit` of a new array, which starts with empty ones. -/
def fittedDicts (c : EngineCfg) {n : ℕ} (v : Fin n → IrrIn) : Dicts PName (Fin n → ℝ) :=
  transformDicts c.p (transformParams c v) fun _ _ => none

/-- `_get_params_at_idx` for time series: pvfactors/geometry/timeseries.py lines 409-411. -/
def dictAtIdx {n : ℕ} (t : Fin n) (d : K → Option (Fin n → ℝ)) (k : K) : Option ℝ :=
  (d k).map fun x => x t

/-- A ground geometry made for a time step: its surfaces, each with the number of its dictionary, and
the dictionaries. -/
structure GroundGeom (K : Type*) where
  shaded : List (Line × ℕ)
  illum : List (Line × ℕ)
  dicts : ℕ → K → Option ℝ

/-- `TsGround.at` without cut points, with the dictionaries: pvfactors/geometry/pvground.py lines
223-264.  All shaded surfaces are given the same dictionary object, number 0 here, and all
illuminated ones the other, number 1 (lines 227-229). -/
def groundAtNoCuts {n : ℕ} (g : Fin n → GroundIn) (h : Dicts K (Fin n → ℝ)) (t : Fin n)
    (mergeIfFlagOverlap : Bool) : GroundGeom K where
  shaded := ((g t).shadedAt mergeIfFlagOverlap false (fun _ _ => 0) 0).map fun s => (s.line, 0)
  illum := ((g t).illumAt false (fun _ _ => 0) 0).map fun s => (s.line, 1)
  dicts := fun i => if i = 0 then dictAtIdx t (h (.ground true)) else dictAtIdx t (h (.ground false))

/-- `BaseSurface.update_params` of a surface with dictionary number `i`: pvfactors/geometry/base.py
lines 280-288. -/
def GroundGeom.update (G : GroundGeom K) (i : ℕ) (new : List (K × ℝ)) : GroundGeom K :=
  { G with dicts := Function.update G.dicts i (dictUpdate (G.dicts i) new) }

end
end PVF

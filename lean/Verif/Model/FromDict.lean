import Verif.Model.Run
import Verif.Model.Sandia

/-!
# Arrays, models and calculators made from dictionaries (geometry/pvarray.py, run.py, irradiance/utils.py)

Dictionaries have unique keys; `List.lookup` reads a key.  `none` stands for an exception (`KeyError`,
`TypeError`).  A value of another type than documented also gives `none`, although Python would raise
an exception only when the value is used.
-/

namespace PVF
noncomputable section

/-- Values in the dictionaries. -/
inductive PyVal where
  | nothing
  | num (x : ℝ)
  | int (n : ℕ)
  | cut (d : List (ℕ × List (String × ℕ)))
  | faoi (f : FaoiArg)
  | str (s : String)

/-- A dictionary with names as keys. -/
abbrev PyDict := List (String × PyVal)

/-- `d[k]` for a number. -/
def PyDict.num (d : PyDict) (k : String) : Option ℝ :=
  match d.lookup k with
  | some (.num x) => some x
  | _ => none

/-- `d[k]` for a whole number. -/
def PyDict.int (d : PyDict) (k : String) : Option ℕ :=
  match d.lookup k with
  | some (.int n) => some n
  | _ => none

/-- `d.get('cut', {})`, then `{} if cut is None else cut`: pvfactors/geometry/pvarray.py lines 95 and
60. -/
def PyDict.cut (d : PyDict) : Option (List (ℕ × List (String × ℕ))) :=
  match d.lookup "cut" with
  | none => some []
  | some .nothing => some []
  | some (.cut c) => some c
  | _ => none

/-- `self.cut.get(idx_pvrow, {})` (pvfactors/geometry/pvarray.py line 224) as used by
`TsPVRow.from_raw_inputs`: pvfactors/geometry/pvrow.py lines 83-92. -/
def cutSpecOf (c : List (ℕ × List (String × ℕ))) (i : ℕ) : CutSpec :=
  let e := (c.lookup i).getD []
  ⟨e.lookup "front", e.lookup "back"⟩

/-- `OrderedPVArray.init_from_dict`: pvfactors/geometry/pvarray.py lines 74-96. -/
def initFromDict (d : PyDict) : Option ArrayParams := do
  let axis ← d.num "axis_azimuth"
  let gcr ← d.num "gcr"
  let height ← d.num "pvrow_height"
  let n ← d.int "n_pvrows"
  let width ← d.num "pvrow_width"
  let cut ← d.cut
  return ⟨axis, gcr, height, width, n, cutSpecOf cut⟩

/-- `OrderedPVArray.fit_from_dict_of_scalars`: pvfactors/geometry/pvarray.py lines 98-128: the array
and the time series (of one time step) it is fitted to. -/
def fitFromDictOfScalars (d : PyDict) : Option (ArrayParams × (Fin 1 → StepIn)) := do
  let p ← initFromDict d
  let zenith ← d.num "solar_zenith"
  let azimuth ← d.num "solar_azimuth"
  let tilt ← d.num "surface_tilt"
  let surfAzimuth ← d.num "surface_azimuth"
  return (p, fun _ => ⟨zenith, azimuth, tilt, surfAzimuth⟩)

/-- An optional argument that is a number, with its default. -/
def PyDict.numArg (d : PyDict) (k : String) (dflt : ℝ) : Option ℝ :=
  match d.lookup k with
  | none => some dflt
  | some (.num x) => some x
  | _ => none

/-- An optional argument that is a whole number, with its default. -/
def PyDict.intArg (d : PyDict) (k : String) (dflt : ℕ) : Option ℕ :=
  match d.lookup k with
  | none => some dflt
  | some (.int x) => some x
  | _ => none

/-- An optional argument that is a fAOI function (default `None`). -/
def PyDict.faoiArg (d : PyDict) (k : String) : Option FaoiArg :=
  match d.lookup k with
  | none => some .missing
  | some .nothing => some .missing
  | some (.faoi f) => some f
  | _ => none

/-- `DEFAULT_HORIZON_BAND_ANGLE`: pvfactors/config.py line 44. -/
def DEFAULT_HORIZON_BAND_ANGLE : ℝ := 13 / 2

/-- Names of the arguments of the constructors: pvfactors/irradiance/models.py lines 28-30 and
407-412. -/
def IrrKind.argNames : IrrKind → List String
  | .isotropic => ["rho_front", "rho_back", "module_transparency", "module_spacing_ratio",
      "faoi_fn_front", "faoi_fn_back"]
  | .hybridPerez => ["horizon_band_angle", "circumsolar_angle", "circumsolar_model", "rho_front",
      "rho_back", "module_transparency", "module_spacing_ratio", "faoi_fn_front", "faoi_fn_back"]

/-- `cls_irradiance(**irradiance_model_params)` (pvfactors/run.py line 99), constructors of
pvfactors/irradiance/models.py lines 28-77 and 407-472.  An unknown name is a `TypeError`.  The
arguments `circumsolar_angle` and `circumsolar_model` are stored (lines 460-461), but only read by
`_calculate_circumsolar_shading_pct` (lines 904-948), which nothing calls. -/
def irrFromKwargs (k : IrrKind) (d : PyDict) : Option IrrParams := do
  if ∀ e ∈ d, e.1 ∈ k.argNames then
    let rhoFront ← d.numArg "rho_front" 0.01
    let rhoBack ← d.numArg "rho_back" 0.03
    let transparency ← d.numArg "module_transparency" 0
    let spacing ← d.numArg "module_spacing_ratio" 0
    let front ← d.faoiArg "faoi_fn_front"
    let back ← d.faoiArg "faoi_fn_back"
    let band ← d.numArg "horizon_band_angle" DEFAULT_HORIZON_BAND_ANGLE
    return irrParamsInit ⟨rhoFront, rhoBack, transparency, spacing, none, none, band⟩ front back
  else none

/-- `cls_vf(**vf_calculator_params)` (pvfactors/run.py line 100), constructor of
pvfactors/viewfactors/calculator.py lines 16-56. -/
def calculatorFromKwargs (d : PyDict) : Option (Option AOIMethods) := do
  if ∀ e ∈ d, e.1 ∈ ["faoi_fn_front", "faoi_fn_back", "n_aoi_integral_sections"] then
    let front ← d.faoiArg "faoi_fn_front"
    let back ← d.faoiArg "faoi_fn_back"
    let n ← d.intArg "n_aoi_integral_sections" 300
    return calculatorInit front back n
  else none

/-- The engine made by `run_timeseries_engine`: pvfactors/run.py lines 96-105.  A dictionary of
arguments that is `None` (or empty) means no arguments. -/
def engineFromDicts (k : IrrKind) (array : PyDict) (irr vf : Option PyDict)
    (fastRow fastSegment : Option ℤ) : Option EngineCfg := do
  let q ← irrFromKwargs k (irr.getD [])
  let aoi ← calculatorFromKwargs (vf.getD [])
  let p ← initFromDict array
  return ⟨p, k, q, aoi, fastRow, fastSegment⟩

/-- `run_timeseries_engine` with its dictionaries: pvfactors/run.py lines 19-114.  The report function
may look at the array. -/
def runFromDicts {τ : Type} [Inhabited τ] (P : Pvlib τ) (k : IrrKind) (array : PyDict)
    (irr vf : Option PyDict) (fastRow fastSegment : Option ℤ) (b : ArrayParams → Builder)
    (a : RunArgs τ) : Option Report := do
  let c ← engineFromDicts k array irr vf fastRow fastSegment
  runSerial P c (b c.p) a

/-- A dataframe: its index and its columns. -/
structure Frame (τ : Type) where
  index : List τ
  columns : List (String × List ℝ)

/-- `breakup_df_inputs`: pvfactors/irradiance/utils.py lines 144-172: time stamps, `surface_tilt`,
`surface_azimuth`, `solar_zenith`, `solar_azimuth`, `dni`, `dhi`. -/
def breakupDfInputs {τ : Type} (df : Frame τ) :
    Option (List τ × List ℝ × List ℝ × List ℝ × List ℝ × List ℝ × List ℝ) := do
  let surfAzimuth ← df.columns.lookup "surface_azimuth"
  let tilt ← df.columns.lookup "surface_tilt"
  let zenith ← df.columns.lookup "solar_zenith"
  let azimuth ← df.columns.lookup "solar_azimuth"
  let dni ← df.columns.lookup "dni"
  let dhi ← df.columns.lookup "dhi"
  return (df.index, tilt, surfAzimuth, zenith, azimuth, dni, dhi)

end
end PVF

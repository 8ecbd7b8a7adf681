import Verif.Model.AOI

/-!
# fAOI functions of modules in the Sandia database (viewfactors/aoimethods.py), and the forms in which
fAOI functions can be given
-/

namespace PVF
noncomputable section

/-- `pvlib.iam.sapm(aoi, module, upper)` (pvlib, external): polynomial of degree 5 in the angle of
incidence in degrees with coefficients `B0` to `B5` of the module, limited to `[0, upper]`, and zero
for negative angles. -/
def sapmIam (b : Fin 6 → ℝ) (upper aoi : ℝ) : ℝ :=
  let iam := b 0 + aoi * (b 1 + aoi * (b 2 + aoi * (b 3 + aoi * (b 4 + aoi * b 5))))
  if aoi < 0 then 0 else clip iam 0 upper

/-- The function `fn` made by `faoi_fn_from_pvlib_sandia`:
pvfactors/viewfactors/aoimethods.py lines 667-684. -/
def sandiaFn (b : Fin 6 → ℝ) (angle : ℝ) : ℝ :=
  let angles := if angle ≥ 90 then angle - 90 else 90 - angle
  sapmIam b 1 angles

/-- `faoi_fn_from_pvlib_sandia`: pvfactors/viewfactors/aoimethods.py lines 647-686.  `db` is the
database (`pvlib.pvsystem.retrieve_sam('SandiaMod')`), restricted to the coefficients that are used;
`none` is the `KeyError` for an unknown name. -/
def faoiFromSandia (db : String → Option (Fin 6 → ℝ)) (name : String) : Option (ℝ → ℝ) :=
  (db name).map sandiaFn

/-- The forms of the arguments `faoi_fn_front` and `faoi_fn_back`: nothing, a function, or an object
with a method `faoi`. -/
inductive FaoiArg where
  | missing
  | function (f : ℝ → ℝ)
  | object (faoi : ℝ → ℝ)

/-- `faoi_fn.faoi if hasattr(faoi_fn, 'faoi') else faoi_fn`: pvfactors/irradiance/models.py lines
72-75, 467-470 and pvfactors/viewfactors/calculator.py lines 44-50. -/
def FaoiArg.resolve : FaoiArg → Option (ℝ → ℝ)
  | .missing => none
  | .function f => some f
  | .object f => some f

/-- `VFCalculator.__init__`: pvfactors/viewfactors/calculator.py lines 18-56. -/
def calculatorInit (front back : FaoiArg) (n : ℕ) : Option AOIMethods :=
  calculatorAoiMethods front.resolve back.resolve n

/-- The part of the constructors of the irradiance models that stores the fAOI functions:
pvfactors/irradiance/models.py lines 71-77, 466-472. -/
def irrParamsInit (q : IrrParams) (front back : FaoiArg) : IrrParams :=
  { q with faoiFront := front.resolve, faoiBack := back.resolve }

end
end PVF

import Verif.Model.Run

/-!
# Arguments of `PVEngine.fit` (engine.py)
-/

namespace PVF
noncomputable section

variable {τ : Type} [Inhabited τ]

/-- The arguments of `PVEngine.fit`: pvfactors/engine.py lines 108-109.  They are plain numbers for one
time step, or time series.  Mixtures of numbers and time series (apart from the albedo) are not
modelled. -/
inductive FitArgs (τ : Type) where
  | numbers (timestamp : τ) (dni dhi solarZenith solarAzimuth surfaceTilt surfaceAzimuth : ℝ)
      (albedo : ℝ ⊕ List ℝ) (ghi : Option ℝ)
  | series (a : RunArgs τ)

/-- `if np.isscalar(DNI): ...`: pvfactors/engine.py lines 140-148. -/
def FitArgs.arrays : FitArgs τ → RunArgs τ
  | .numbers timestamp dni dhi solarZenith solarAzimuth surfaceTilt surfaceAzimuth albedo ghi =>
    { timestamps := [timestamp]
      dni := [dni]
      dhi := [dhi]
      solarZenith := [solarZenith]
      solarAzimuth := [solarAzimuth]
      surfaceTilt := [surfaceTilt]
      surfaceAzimuth := [surfaceAzimuth]
      albedo := albedo
      ghi := ghi.map fun g => [g] }
  | .series a => a

open Classical in
/-- `self.skip_step`: pvfactors/engine.py lines 171-175. -/
def skipStep (zenith dni dhi : ℝ) : Bool :=
  decide (zenith > 90) || decide (dni < 0) || decide (dhi < 0)
    || (decide (dni = 0) && decide (dhi = 0))

/-- What `fit` stores in `skip_step`: pvfactors/engine.py lines 171-175 (arrays combined element by
element). -/
def FitArgs.skipSteps (x : FitArgs τ) : List Bool :=
  List.zipWith (fun z (d : ℝ × ℝ) => skipStep z d.1 d.2) x.arrays.solarZenith
    (List.zip x.arrays.dni x.arrays.dhi)

/-- `PVEngine.fit` with its arguments as the caller gives them: pvfactors/engine.py lines 108-175.
The result is the state of the engine and `skip_step`; `none` is an exception. -/
def engineFitArgs (P : Pvlib τ) (c : EngineCfg) (st : EngineState) (x : FitArgs τ) :
    Option (EngineState × List Bool) :=
  (x.arrays.inputs P).map fun l =>
    (engineFit c st (fun t : Fin l.length => l.get t), x.skipSteps)

/-- `run_timeseries_engine` with its arguments as the caller gives them: pvfactors/run.py
lines 19-114; lines 105-106 hand them to the engine unchanged. -/
def runEngine (P : Pvlib τ) (c : EngineCfg) (b : Builder) (x : FitArgs τ) : Option Report :=
  match engineFitArgs P c newEngine x with
  | none => none
  | some (st, _) =>
    let r := if c.fastRow.isNone then engineFull c st else engineFast c st none none
    if r.2 then b.build r.1 else none

end
end PVF

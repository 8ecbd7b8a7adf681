import Verif.Model.State
import Verif.Model.Weighted
import Mathlib.Data.List.Sort

/-!
# Serial and parallel runs, reports (run.py, report.py)
-/

namespace PVF
noncomputable section

/-! ## Splitting: `numpy.array_split` (external, numpy/lib/shape_base.py) -/

/-- `cumsum`. -/
def cumsum (l : List ℕ) : List ℕ := (List.range l.length).map fun i => (l.take (i + 1)).sum

/-- `Neach, extras = divmod(Ntotal, Nsections)`,
`section_sizes = [0] + extras * [Neach+1] + (Nsections-extras) * [Neach]`,
`div_points = cumsum(section_sizes)`. -/
def divPoints (total sections : ℕ) : List ℕ :=
  cumsum (0 :: (List.replicate (total % sections) (total / sections + 1)
    ++ List.replicate (sections - total % sections) (total / sections)))

/-- `np.array_split(l, n)` with an integer number of sections: `l[div_points[i]:div_points[i+1]]`
for each section; `ValueError` if `n` is not positive. -/
def arraySplit {α : Type*} (l : List α) (n : ℤ) : Option (List (List α)) :=
  if n ≤ 0 then none
  else some <| (List.range n.toNat).map fun i =>
    let d := divPoints l.length n.toNat
    (l.take (d.getD (i + 1) 0)).drop (d.getD i 0)

/-! ## Reports (report.py) -/

/-- A report: dictionary from keys to lists of values, in the order of insertion. -/
abbrev Report := List (String × List ℝ)

/-- `for key in keys_report: report[key] += other_report[key]` (pvfactors/report.py lines 69-70);
`none` is a `KeyError`. -/
def mergeInto (r other : Report) : Option Report :=
  r.mapM fun e => (other.lookup e.1).map fun ws => (e.1, e.2 ++ ws)

/-- `ExampleReportBuilder.merge`: pvfactors/report.py lines 49-71.  `none` is an exception: no report
at all, or a report lacks a key.  The reports are taken to be different objects (the code extends
the lists of the first report in place). -/
def mergeReports : List Report → Option Report
  | [] => none
  | r :: rs => rs.foldlM mergeInto r

/-! ## What a report is built from -/

/-- What the objects of the array hold for one time step. -/
structure StepView where
  u : StepIn
  dict : SurfRef → PName → Option ℝ
  vf : Option (ℕ → ℕ → ℝ)
  vfAoi : Option (ℕ → ℕ → ℝ)

/-- The matrix of time step `t`. -/
def TsMatrix.at (m : TsMatrix) (t : ℕ) : Option (ℕ → ℕ → ℝ) :=
  if h : t < m.1 then some (m.2 ⟨t, h⟩) else none

/-- Contents of the array, time step by time step. -/
def EngineState.views (st : EngineState) : List StepView :=
  match st.fitted with
  | none => []
  | some ⟨_, f⟩ => List.ofFn fun t =>
    { u := f.u t
      dict := fun a k => (f.dict a k).map fun x => x t
      vf := st.vf.bind fun m => m.at t
      vfAoi := st.vfAoi.bind fun m => m.at t }

/-- A surface has a parameter. -/
def EngineState.has (st : EngineState) (a : SurfRef) (k : PName) : Prop :=
  match st.fitted with
  | none => False
  | some ⟨_, f⟩ => (f.dict a k).isSome

/-- One entry of a report that is computed time step by time step: its key, the parameters that it
reads and the value at a time step. -/
structure Field where
  key : String
  needs : List (SurfRef × PName)
  value : StepView → ℝ

/-- A report function that makes a dictionary of lists of values, each computed time step by time
step (like pvfactors/report.py lines 4-26).  `valid` is false if it raises an exception whatever
the results are, e.g. because the array has no such row. -/
structure Builder where
  valid : Bool
  fields : List Field

open Classical in
/-- Call of the report function: pvfactors/engine.py lines 263-264 and 317-318. -/
def Builder.build (b : Builder) (st : EngineState) : Option Report :=
  if b.valid = true ∧ ∀ f ∈ b.fields, ∀ x ∈ f.needs, st.has x.1 x.2 then
    some (b.fields.map fun f => (f.key, st.views.map f.value))
  else none

/-- One entry of the example report: a weighted parameter of a side of row 1. -/
def exampleField (p : ArrayParams) (key : String) (s : RowSide) (k : PName) : Field where
  key := key
  needs := (sideColl p 1 s).flatMap fun c => c.all.map fun a => (a, k)
  value := fun v => sideWeighted (fun a => ((fitStep p v.u).coords a).length)
    (fun a => (v.dict a k).getD 0) (sideColl p 1 s)

/-- `example_fn_build_report`: pvfactors/report.py lines 4-26. -/
def exampleBuilder (p : ArrayParams) : Builder where
  valid := decide (1 < p.nRows)
  fields := [exampleField p "qinc_front" .front .qinc, exampleField p "qinc_back" .back .qinc,
    exampleField p "iso_front" .front .isotropic, exampleField p "iso_back" .back .isotropic]

/-! ## Runs (run.py) -/

/-- External functions (pvlib), with values of type `τ` as time stamps: `get_extra_radiation` of the
time stamp, `get_relative_airmass` of the zenith, `perez`, and `get_total_irradiance(...)['poa_global']`
of tilt, surface azimuth, zenith, solar azimuth, DNI, GHI, DHI, albedo.  `emptyOk`: whether pandas
and pvlib accept time series without any time step. -/
structure Pvlib (τ : Type) where
  dniExtra : τ → ℝ
  airmass : ℝ → ℝ
  perez : PerezIn → PerezComponents
  poaGlobal : ℝ → ℝ → ℝ → ℝ → ℝ → ℝ → ℝ → ℝ → ℝ
  emptyOk : Bool

/-- The time series given to a run: pvfactors/run.py lines 20-21.  `albedo` is a scalar (`inl`) or a
list. -/
structure RunArgs (τ : Type) where
  timestamps : List τ
  dni : List ℝ
  dhi : List ℝ
  solarZenith : List ℝ
  solarAzimuth : List ℝ
  surfaceTilt : List ℝ
  surfaceAzimuth : List ℝ
  albedo : ℝ ⊕ List ℝ
  ghi : Option (List ℝ)

variable {τ : Type} [Inhabited τ]

/-- `albedo * np.ones(len(dni))` if scalar: pvfactors/run.py lines 199-200, pvfactors/engine.py
lines 150-152. -/
def RunArgs.albedoList (a : RunArgs τ) : List ℝ :=
  match a.albedo with
  | .inl x => List.replicate a.dni.length x
  | .inr l => l

/-- All time series have the same length.  (Otherwise numpy raises an exception, except that it
repeats arrays of length one, which the model leaves out.) -/
def RunArgs.Aligned (a : RunArgs τ) : Prop :=
  a.timestamps.length = a.dni.length ∧ a.dhi.length = a.dni.length ∧
  a.solarZenith.length = a.dni.length ∧ a.solarAzimuth.length = a.dni.length ∧
  a.surfaceTilt.length = a.dni.length ∧ a.surfaceAzimuth.length = a.dni.length ∧
  a.albedoList.length = a.dni.length ∧ ∀ l, a.ghi = some l → l.length = a.dni.length

/-- Row `i` of the dataframe of `perez_diffuse_luminance`: pvfactors/irradiance/utils.py
lines 57-64. -/
def RunArgs.perezIn (a : RunArgs τ) (P : Pvlib τ) (i : ℕ) : PerezIn where
  surfaceTilt := a.surfaceTilt.getD i 0
  surfaceAzimuth := a.surfaceAzimuth.getD i 0
  solarZenith := a.solarZenith.getD i 0
  solarAzimuth := a.solarAzimuth.getD i 0
  dni := a.dni.getD i 0
  dhi := a.dhi.getD i 0
  dniExtra := P.dniExtra (a.timestamps.getD i default)
  airmass := P.airmass (a.solarZenith.getD i 0)

/-- The inputs of the irradiance models, time step by time step (pvfactors/irradiance/models.py
lines 84-86, 117-127, 480-482, 523-543), if the arguments have the same length and the length is
acceptable.  The isotropic model does not call `perez_diffuse_luminance` nor use its results.
Python allows about 1000 nested calls. -/
def RunArgs.inputs (a : RunArgs τ) (P : Pvlib τ) : Option (List IrrIn) :=
  open Classical in
  if a.Aligned ∧ (a.dni ≠ [] ∨ P.emptyOk = true) then
    (perezDiffuseLuminance P.perez 1000
      ((List.range a.dni.length).map fun i => a.perezIn P i)).map fun out =>
      List.zipWith (fun i (o : PerezOut) =>
        let ghi := a.ghi.map fun l => l.getD i 0
        { dni := a.dni.getD i 0
          dhi := a.dhi.getD i 0
          solarZenith := a.solarZenith.getD i 0
          solarAzimuth := a.solarAzimuth.getD i 0
          surfaceTilt := a.surfaceTilt.getD i 0
          surfaceAzimuth := a.surfaceAzimuth.getD i 0
          albedo := a.albedoList.getD i 0
          ghi := ghi
          poaGlobal := P.poaGlobal (a.surfaceTilt.getD i 0) (a.surfaceAzimuth.getD i 0)
            (a.solarZenith.getD i 0) (a.solarAzimuth.getD i 0) (a.dni.getD i 0)
            (ghi.getD (a.dni.getD i 0 * cosd (a.solarZenith.getD i 0) + a.dhi.getD i 0))
            (a.dhi.getD i 0) (a.albedoList.getD i 0)
          perez := o }) (List.range a.dni.length) out
  else none

/-- `run_timeseries_engine`: pvfactors/run.py lines 19-114.  The constructor arguments are in `c`
(new objects are made by every call); `none` is an exception. -/
def runSerial (P : Pvlib τ) (c : EngineCfg) (b : Builder) (a : RunArgs τ) : Option Report :=
  match a.inputs P with
  | none => none
  | some l =>
    let st := engineFit c newEngine (fun t : Fin l.length => l.get t)
    let r := if c.fastRow.isNone then engineFull c st else engineFast c st none none
    if r.2 then b.build r.1 else none

/-- Time series for the workers: pvfactors/run.py lines 199-200, 210-241.  One `RunArgs` for each
fold; `none` is the `ValueError` of `array_split`. -/
def foldArgs (a : RunArgs τ) (n : ℤ) : Option (List (RunArgs τ)) := do
  let ft ← arraySplit a.timestamps n
  let fsa ← arraySplit a.surfaceAzimuth n
  let fst ← arraySplit a.surfaceTilt n
  let fz ← arraySplit a.solarZenith n
  let faz ← arraySplit a.solarAzimuth n
  let fdni ← arraySplit a.dni n
  let fdhi ← arraySplit a.dhi n
  let fal ← arraySplit a.albedoList n
  let fghi ← match a.ghi with
    | none => some (List.replicate n.toNat none)
    | some g => (arraySplit g n).map fun f => f.map some
  return (List.range n.toNat).map fun i =>
    { timestamps := ft.getD i []
      dni := fdni.getD i []
      dhi := fdhi.getD i []
      solarZenith := fz.getD i []
      solarAzimuth := faz.getD i []
      surfaceTilt := fst.getD i []
      surfaceAzimuth := fsa.getD i []
      albedo := .inr (fal.getD i [])
      ghi := fghi.getD i none }

/-- `n_processes`, all CPUs if it is -1: pvfactors/run.py lines 195-196. -/
def workers (cpus : ℕ) (n : ℤ) : ℤ := if n = -1 then cpus else n

/-- The reports with their indices (`_run_serially`, pvfactors/run.py lines 261-298) for all folds,
in the order of the folds; `none` if a worker raises an exception (`pool.map` raises it again). -/
def workerReports (P : Pvlib τ) (c : EngineCfg) (b : Builder) (folds : List (RunArgs τ)) :
    Option (List (Report × ℕ)) :=
  (folds.mapM fun a => runSerial P c b a).map fun l => l.zipIdx

/-- Sorting and merging of the indexed reports: pvfactors/run.py lines 250-255. -/
def collect (indexed : List (Report × ℕ)) : Option Report :=
  mergeReports ((indexed.insertionSort fun x y => x.2 ≤ y.2).map fun x => x.1)

/-- `run_parallel_engine`: pvfactors/run.py lines 117-257.  `arrive` is the order in which the
results of the workers are delivered. -/
def runParallel (P : Pvlib τ) (c : EngineCfg) (b : Builder) (cpus : ℕ) (n : ℤ)
    (arrive : List (Report × ℕ) → List (Report × ℕ)) (a : RunArgs τ) : Option Report := do
  let folds ← foldArgs a (workers cpus n)
  let indexed ← workerReports P c b folds
  collect (arrive indexed)

end
end PVF

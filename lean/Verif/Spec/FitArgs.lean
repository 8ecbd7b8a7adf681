import Verif.Model.FitArgs

/-!
# Terms used for arguments of a run
-/

namespace PVF

variable {τ : Type}

/-- `x` is a run for time step `i` alone of the time series `a`: all arguments are plain numbers, the
ones at that place. -/
inductive StepOf (a : RunArgs τ) (i : ℕ) : FitArgs τ → Prop
  | intro (t : τ) (dni dhi zenith azimuth tilt surfAzimuth albedo : ℝ) (ghi : Option ℝ)
      (ht : a.timestamps[i]? = some t)
      (hdni : a.dni[i]? = some dni) (hdhi : a.dhi[i]? = some dhi)
      (hz : a.solarZenith[i]? = some zenith) (haz : a.solarAzimuth[i]? = some azimuth)
      (htilt : a.surfaceTilt[i]? = some tilt) (hsaz : a.surfaceAzimuth[i]? = some surfAzimuth)
      (hal : a.albedo = .inl albedo ∨ ∃ l, a.albedo = .inr l ∧ l[i]? = some albedo)
      (hghi : (a.ghi = none ∧ ghi = none) ∨ ∃ l g, a.ghi = some l ∧ l[i]? = some g ∧ ghi = some g) :
      StepOf a i (.numbers t dni dhi zenith azimuth tilt surfAzimuth (.inl albedo) ghi)

/-- The part of a report that belongs to time step `i`. -/
def Report.atStep (r : Report) (i : ℕ) : Report := r.map fun e => (e.1, (e.2[i]?).toList)

/-- Nothing can be calculated for a time step, according to its inputs: the sun is below the horizon,
an irradiance is negative, or there is no light. -/
def NoUse (zenith dni dhi : ℝ) : Prop := 90 < zenith ∨ dni < 0 ∨ dhi < 0 ∨ (dni = 0 ∧ dhi = 0)

end PVF

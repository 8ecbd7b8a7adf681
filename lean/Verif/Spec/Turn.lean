import Verif.Model.Run

/-! # Turning a whole scene about the vertical -/

namespace PVF

/-- Direction `b` is direction `a` turned by `δ` degrees (azimuths that differ by full circles are
the same direction). -/
def SameDir (δ a b : ℝ) : Prop := ∃ k : ℤ, b = a + δ + 360 * k

/-- Angles of one time step, with the modules and the sun turned by `δ`. -/
structure TurnedStep (δ : ℝ) (u u' : StepIn) : Prop where
  zenith : u'.solarZenith = u.solarZenith
  tilt : u'.surfaceTilt = u.surfaceTilt
  sun : SameDir δ u.solarAzimuth u'.solarAzimuth
  surface : SameDir δ u.surfaceAzimuth u'.surfaceAzimuth

/-- Inputs of one time step, with the modules and the sun turned by `δ` and everything else the
same. -/
structure TurnedIn (δ : ℝ) (v v' : IrrIn) : Prop where
  sun : SameDir δ v.solarAzimuth v'.solarAzimuth
  surface : SameDir δ v.surfaceAzimuth v'.surfaceAzimuth
  rest : v' = { v with solarAzimuth := v'.solarAzimuth, surfaceAzimuth := v'.surfaceAzimuth }

/-- The rows turned by `δ`. -/
def ArrayParams.turn (δ : ℝ) (p : ArrayParams) : ArrayParams :=
  { p with axisAzimuth := p.axisAzimuth + δ }

/-- The engine of the turned rows. -/
def EngineCfg.turn (δ : ℝ) (c : EngineCfg) : EngineCfg := { c with p := c.p.turn δ }

/-- Calls on an engine, with all inputs turned by `δ`. -/
inductive TurnedOp (δ : ℝ) : EngineOp → EngineOp → Prop where
  | fit {n : ℕ} (v v' : Fin n → IrrIn) (h : ∀ t, TurnedIn δ (v t) (v' t)) :
      TurnedOp δ (.fit v) (.fit v')
  | full : TurnedOp δ .full .full
  | fast (row segment : Option ℤ) : TurnedOp δ (.fast row segment) (.fast row segment)

/-- Two engines hold the same results: view factors, luminances and the parameters of all
surfaces. -/
inductive SameResults : EngineState → EngineState → Prop where
  | new (vf vfAoi : Option TsMatrix) : SameResults ⟨none, vf, vfAoi⟩ ⟨none, vf, vfAoi⟩
  | fitted {n : ℕ} (u u' : Fin n → StepIn) (attrs : Fin n → IrrAttrs) (dict : SurfRef → Params n)
      (vf vfAoi : Option TsMatrix) :
      SameResults ⟨some ⟨n, u, attrs, dict⟩, vf, vfAoi⟩ ⟨some ⟨n, u', attrs, dict⟩, vf, vfAoi⟩

variable {τ : Type} [Inhabited τ]

/-- Arguments of a run, with all azimuths turned by `δ`. -/
structure TurnedArgs (δ : ℝ) (a a' : RunArgs τ) : Prop where
  sunLength : a'.solarAzimuth.length = a.solarAzimuth.length
  surfaceLength : a'.surfaceAzimuth.length = a.surfaceAzimuth.length
  sun : ∀ i < a.solarAzimuth.length,
    SameDir δ (a.solarAzimuth.getD i 0) (a'.solarAzimuth.getD i 0)
  surface : ∀ i < a.surfaceAzimuth.length,
    SameDir δ (a.surfaceAzimuth.getD i 0) (a'.surfaceAzimuth.getD i 0)
  rest : a' = { a with solarAzimuth := a'.solarAzimuth, surfaceAzimuth := a'.surfaceAzimuth }

/-- The functions of pvlib depend on azimuths only through the angle between the sun and the
direction that the modules face (as seen from above), up to its sign. -/
structure DependsOnDifference (P : Pvlib τ) : Prop where
  perez : ∀ r az az', cosd (az' - az) = cosd (r.solarAzimuth - r.surfaceAzimuth) →
    P.perez { r with surfaceAzimuth := az, solarAzimuth := az' } = P.perez r
  poaGlobal : ∀ tilt zenith dni ghi dhi albedo az sun az' sun',
    cosd (sun' - az') = cosd (sun - az) →
    P.poaGlobal tilt az' zenith sun' dni ghi dhi albedo
      = P.poaGlobal tilt az zenith sun dni ghi dhi albedo

end PVF

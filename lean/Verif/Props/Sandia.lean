import Verif.Model.Sandia
import Verif.Props.AOI
import Verif.Props.AbsorbedDirect

/-! # fAOI functions of modules in the Sandia database: C72 -/

namespace PVF

theorem sapmIam_range (b : Fin 6 → ℝ) {upper : ℝ} (h : 0 ≤ upper) (x : ℝ) :
    0 ≤ sapmIam b upper x ∧ sapmIam b upper x ≤ upper := by
  unfold sapmIam clip
  simp only
  split_ifs
  · exact ⟨le_rfl, h⟩
  · exact ⟨le_min (le_max_right _ _) h, min_le_right _ _⟩

/-- C72: the function takes the incidence angle modifier of the module at the angle from the normal,
for an angle measured from the surface (from either end). -/
theorem C72_angle (b : Fin 6 → ℝ) (x : ℝ) : sandiaFn b x = sapmIam b 1 |90 - x| := by
  unfold sandiaFn
  simp only
  split_ifs with h
  · rw [abs_of_nonpos (by linarith), neg_sub]
  · rw [abs_of_pos (by linarith)]

/-- C72: values are shares of the light, at all angles. -/
theorem C72_range (b : Fin 6 → ℝ) (x : ℝ) : 0 ≤ sandiaFn b x ∧ sandiaFn b x ≤ 1 := by
  rw [C72_angle]
  exact sapmIam_range b zero_le_one _

/-- C72: it does not matter from which end of the surface the angle is measured. -/
theorem C72_symmetric (b : Fin 6 → ℝ) (x : ℝ) : sandiaFn b (180 - x) = sandiaFn b x := by
  rw [C72_angle, C72_angle, show 90 - (180 - x) = -(90 - x) by ring, abs_neg]

/-- C72: the reflectivity derived from the function is between 0 and 1. -/
theorem C72_reflectivity (b : Fin 6 → ℝ) {n : ℕ} (hn : 0 < n) :
    0 ≤ rhoFromFaoi (sandiaFn b) n ∧ rhoFromFaoi (sandiaFn b) n ≤ 1 :=
  C31_bounds hn fun x _ _ => C72_range b x

/-- C72: what a row absorbs of direct and circumsolar light is the incidence angle modifier of the
module at the angle between the sun and the normal of the side that it hits. -/
theorem C72_absorbed (db : String → Option (Fin 6 → ℝ)) (name : String) (b : Fin 6 → ℝ)
    (hb : db name = some b) (q : IrrParams) (p : ArrayParams) (g : StepGeom) (v : IrrIn) (r k : ℕ)
    (s : RowSide) (sh : Bool) (hf : q.faoi s = faoiFromSandia db name) (θ : ℝ) (h0 : 0 ≤ θ)
    (h1 : θ ≤ 90)
    (hx : cosd θ = |cosIncidence v.surfaceTilt v.surfaceAzimuth v.solarZenith v.solarAzimuth|) :
    (∀ d, (isotropicStep q v).comp (.pv r s k sh) = [d] →
      (isotropicStep q v).compAbs (.pv r s k sh) = [sapmIam b 1 θ * d]) ∧
    (∀ d c h, (hybridPerezStep q p g v).comp (.pv r s k sh) = [d, c, h] →
      (hybridPerezStep q p g v).compAbs (.pv r s k sh)
        = [sapmIam b 1 θ * d, sapmIam b 1 θ * c, sapmIam b 1 |90 - v.surfaceTilt| * h]) := by
  have hf' : q.faoi s = some (sandiaFn b) := by rw [hf, faoiFromSandia, hb]; rfl
  have he : IsElevation (cosIncidence v.surfaceTilt v.surfaceAzimuth v.solarZenith v.solarAzimuth)
      (90 - θ) := by
    refine ⟨by linarith, by linarith, ?_⟩
    rw [← hx]
    unfold sind cosd
    rw [show deg2rad (90 - θ) = Real.pi / 2 - deg2rad θ by unfold deg2rad; ring,
      Real.sin_pi_div_two_sub]
  have hs : sandiaFn b (90 - θ) = sapmIam b 1 θ := by
    rw [C72_angle, show 90 - (90 - θ) = θ by ring, abs_of_nonneg h0]
  have := C68_absorbed q p g v r k s sh (sandiaFn b) hf' (90 - θ) he
  rw [hs, C72_angle b v.surfaceTilt] at this
  exact this

/-- C72: a function and an object with that function as its method `faoi` mean the same to the view
factor calculator and to the irradiance models. -/
theorem C72_forms (q : IrrParams) (f g : ℝ → ℝ) (back : FaoiArg) (n : ℕ) :
    calculatorInit (.object f) back n = calculatorInit (.function f) back n ∧
    calculatorInit back (.object f) n = calculatorInit back (.function f) n ∧
    irrParamsInit q (.object f) (.object g) = irrParamsInit q (.function f) (.function g) ∧
    calculatorInit (.function f) (.function g) n = some ⟨f, g, n⟩ ∧
    calculatorInit .missing back n = none ∧ calculatorInit back .missing n = none := by
  refine ⟨rfl, rfl, rfl, rfl, rfl, ?_⟩
  cases back <;> rfl

/-- C72: each side of the rows gets its own function in the irradiance models, or none, and all other
parameters stay as they are.  A name that is not in the database is an error. -/
theorem C72_sides (q : IrrParams) (f : ℝ → ℝ) (other : FaoiArg) (db : String → Option (Fin 6 → ℝ))
    (name : String) :
    (irrParamsInit q (.function f) other).faoi .front = some f ∧
    (irrParamsInit q other (.function f)).faoi .back = some f ∧
    (irrParamsInit q .missing other).faoi .front = none ∧
    (irrParamsInit q other .missing).faoi .back = none ∧
    { irrParamsInit q other other with faoiFront := q.faoiFront, faoiBack := q.faoiBack } = q ∧
    (faoiFromSandia db name = none ↔ db name = none) :=
  ⟨rfl, rfl, rfl, rfl, rfl, by simp [faoiFromSandia]⟩

/-- C72 in a concrete case: a module that loses 1/2 at 60 degrees from the normal and everything from
90 degrees on. -/
theorem C72_demo : let b : Fin 6 → ℝ := fun i => if i = 0 then 2 else if i = 1 then -1 / 40 else 0
    sandiaFn b 30 = 1 / 2 ∧ sandiaFn b 150 = 1 / 2 ∧ sandiaFn b 90 = 1 ∧ sandiaFn b 5 = 0 ∧
    faoiFromSandia (fun n => if n = "m" then some b else none) "x" = none := by
  intro b
  have h : ∀ x, 0 ≤ x → sapmIam b 1 x = min (max (2 - x / 40) 0) 1 := by
    intro x hx
    have e0 : b 0 = 2 := rfl
    have e1 : b 1 = -1 / 40 := rfl
    have e2 : b 2 = 0 := rfl
    have e3 : b 3 = 0 := rfl
    have e4 : b 4 = 0 := rfl
    have e5 : b 5 = 0 := rfl
    simp only [sapmIam, clip, if_neg (not_lt.2 hx), e0, e1, e2, e3, e4, e5]
    congr 2
    ring
  refine ⟨?_, ?_, ?_, ?_, ?_⟩
  · rw [C72_angle, h _ (abs_nonneg _)]; norm_num [abs_of_pos]
  · rw [C72_angle, h _ (abs_nonneg _)]; norm_num [abs_of_neg]
  · rw [C72_angle, h _ (abs_nonneg _)]; norm_num
  · rw [C72_angle, h _ (abs_nonneg _)]; norm_num [abs_of_pos]
  · have : ("x" : String) ≠ "m" := by decide
    simp [faoiFromSandia, this]

end PVF

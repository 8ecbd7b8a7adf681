import Verif.Spec.Scene

/-!
# Light that arrives at a point of a surface and is not reflected

By the way back of the rays: of the light that comes to a point from all directions alike, the share
that comes from directions satisfying a condition and is not reflected, if the fraction `f` of the
light is not reflected, `f` depending on the angle between the ray and the surface.
-/

namespace PVF
noncomputable section

open Classical in
/-- Share of the light reaching a point of a surface with normal `n` that comes from directions
satisfying `Q` and is not reflected.  `f` gets the angle in degrees from the surface: the direction
at angle `x` is the normal turned clockwise by `x - 90` degrees. -/
def keptShare (f : ℝ → ℝ) (n : Pt) (Q : Pt → Prop) : ℝ :=
  1 / 2 * ∫ a in (-(Real.pi / 2))..(Real.pi / 2),
    if Q (turn n a) then f (90 + a * (180 / Real.pi)) * Real.cos a else 0

/-- Share of the light reaching the middle of surface `a` that comes from surface `b` and is not
reflected. -/
def rayKept (f : ℝ → ℝ) (p : ArrayParams) (g : StepGeom) (a b : SurfRef) : ℝ :=
  keptShare f (outward g.rot.deg a)
    (Arrives (g.Solid p) (fun Y => OnSeg Y (g.coords b)) (outward g.rot.deg b)
      (lerp (g.coords a).b1 (g.coords a).b2 (1 / 2)))

/-- Share of the light reaching the middle of surface `a` that comes from the sky and is not
reflected. -/
def rayKeptSky (f : ℝ → ℝ) (p : ArrayParams) (g : StepGeom) (a : SurfRef) : ℝ :=
  keptShare f (outward g.rot.deg a)
    (Escapes (g.Solid p) (lerp (g.coords a).b1 (g.coords a).b2 (1 / 2)))

/-- From the middle of surface `a` of row `r`, rays that come down to the height of the ground
without meeting anything do so where there is ground (from -100 m to 100 m), or beyond its end if
the surface looks away from the array at an outermost row; that end is not behind the surface. -/
structure GroundReaches (p : ArrayParams) (g : StepGeom) (r : ℕ) (a : SurfRef) : Prop where
  covers : ∀ d : Pt, 0 < d.x * (outward g.rot.deg a).x + d.y * (outward g.rot.deg a).y →
    ∀ l > 0, ∀ x, along (lerp (g.coords a).b1 (g.coords a).b2 (1 / 2)) d l = ⟨x, 0⟩ →
    (∀ k, 0 < k → k < l → ¬ g.Solid p (along (lerp (g.coords a).b1 (g.coords a).b2 (1 / 2)) d k)) →
    (MIN_X ≤ x ∧ x ≤ MAX_X) ∨ ((outward g.rot.deg a).x < 0 ∧ r = 0 ∧ x < MIN_X) ∨
      (0 < (outward g.rot.deg a).x ∧ r + 1 = p.nRows ∧ MAX_X < x)
  leftEnd : (outward g.rot.deg a).x < 0 → r = 0 →
    0 ≤ (MIN_X - (lerp (g.coords a).b1 (g.coords a).b2 (1 / 2)).x) * (outward g.rot.deg a).x
      + (0 - (lerp (g.coords a).b1 (g.coords a).b2 (1 / 2)).y) * (outward g.rot.deg a).y
  rightEnd : 0 < (outward g.rot.deg a).x → r + 1 = p.nRows →
    0 ≤ (MAX_X - (lerp (g.coords a).b1 (g.coords a).b2 (1 / 2)).x) * (outward g.rot.deg a).x
      + (0 - (lerp (g.coords a).b1 (g.coords a).b2 (1 / 2)).y) * (outward g.rot.deg a).y

end
end PVF

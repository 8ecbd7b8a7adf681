import Verif.Spec.Principles
import Verif.Spec.Parts

/-!
# One reflection of light from open surroundings

What fast mode computes, from first principles: light that reaches a back surface straight from sun
and sky or after a single reflection by ground and rows, which are lit as if there were no other
rows except for the shadows that these cast.
-/

namespace PVF
noncomputable section

/-- Diffuse light on a plane with outward direction `n` on open ground: the part of the sky above
the plane and the part of the ground in front of it. -/
def openDiffuse (dhi ghi albedo : ℝ) (n : Pt) : ℝ :=
  dhi * ((1 + n.y) / 2) + albedo * ghi * ((1 - n.y) / 2)

/-- Light on surface `b` if there were no other rows except for their shadows.  The part of the
sunlight that rows let through is counted on the ground (`share`), but not on rows. -/
def openLight (p : ArrayParams) (g : StepGeom) (dni dhi albedo share : ℝ) (b : SurfRef) : ℝ :=
  sunlight p g dni (match b.kind with | .ground => share | _ => 0) b
    + openDiffuse dhi (dni * g.sun.y + dhi) albedo (outward g.rot.deg b)

/-- The same in the hybrid Perez model: light of strength `K` from the direction of the sun is
treated as sunlight instead of diffuse light.  Here the part of the sunlight that rows let through is
counted on rows as well. -/
def openLightPerez (p : ArrayParams) (g : StepGeom) (dni K dhi albedo share : ℝ) (b : SurfRef) : ℝ :=
  sunlight p g (dni + K) share b
    + (openDiffuse dhi (dni * g.sun.y + dhi) albedo (outward g.rot.deg b)
      - K * max 0 ((outward g.rot.deg b).x * g.sun.x + (outward g.rot.deg b).y * g.sun.y))

/-- The line through `A` and `B` meets the ground within the scene. -/
def MeetsGround (A B : Pt) : Prop := ∃ c : ℝ, (MIN_X ≤ c ∧ c ≤ MAX_X) ∧ Aligned ⟨c, 0⟩ A B

/-- The ground that surface `a` on the back of row `r` sees ends within the scene: the line of the
row and the line that just passes the next row meet the ground there. -/
structure GroundInReach (p : ArrayParams) (g : StepGeom) (r : ℕ) (a : SurfRef) : Prop where
  tilted : g.rot.deg ≠ 0
  own : MeetsGround (g.row r).full.b1 (g.row r).full.b2
  next : ∀ j < p.nRows, (if 0 < g.rot.deg then j = r + 1 else r = j + 1) →
    MeetsGround (g.row j).full.lowest (g.coords a).lowest

end
end PVF

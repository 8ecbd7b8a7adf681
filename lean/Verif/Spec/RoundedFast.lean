import Verif.Spec.RoundedTrig
import Verif.Model.RoundedFast

/-!
# How exact fast mode is
-/

namespace PVF
noncomputable section

/-- Error of the shaded length of a side with at most `N` segments whose ends have errors of `τ`. -/
def lengthErr (N : ℕ) (ε B τ : ℝ) : ℝ :=
  (grow ε ^ (N + 4) - 1) * (B + 2 * N * τ) + 2 * N * τ

/-- Error of the ends of the shaded parts of sides. -/
def shadeEndErr (N : ℕ) (ε η B τ : ℝ) : ℝ :=
  2 * endErr ε η (B + lengthErr N ε B τ) + lengthErr N ε B τ

/-- Error of all points that fast mode uses. -/
def fastPointErr (N : ℕ) (ε η B K : ℝ) : ℝ :=
  sceneErr ε η B K (1 / K) + shadeEndErr N ε η B (sceneErr ε η B K (1 / K))

/-- No two points that fast mode uses are farther apart. -/
def fastSize (B K τ : ℝ) : ℝ := 4 * (100 + 3 / 2 * B * (1 + K) + τ)

/-- Error of a view factor of fast mode that comes from lengths of strings. -/
def stringErr (ε D w c τ : ℝ) : ℝ :=
  rowBound ε D (w - 2 * τ) (c - 2 * τ) (2 * τ) + rowMove D (w - 2 * τ) (c - 2 * τ) (2 * τ) τ

/-- Error of a sum of `n` view factors with errors of `E`. -/
def vfSumErr (n : ℕ) (ε E : ℝ) : ℝ := n * E + (grow ε ^ n - 1) * (n * (1 + E))

/-- Error of a difference with an exact value between 0 and 1 of numbers whose errors have the sum `d`. -/
def diffErr (ε d : ℝ) : ℝ := d + ε * (1 + d)

/-- Error of all view factors of fast mode. -/
def fastErr (n : ℕ) (ε E : ℝ) : ℝ := diffErr ε (vfSumErr n ε E + E + diffErr ε E)

/-- The view factors `v'` are close to `v`. -/
structure FastNear (n : ℕ) (ε E : ℝ) (v' v : FastVF) : Prop where
  each : List.Forall₂ (fun x' x => |x' - x| ≤ E) v'.toEachGndShadow v.toEachGndShadow
  gndShaded : |v'.toGndShaded - v.toGndShaded| ≤ vfSumErr n ε E
  gndTotal : |v'.toGndTotal - v.toGndTotal| ≤ E
  gndIllum : |v'.toGndIllum - v.toGndIllum| ≤ diffErr ε (vfSumErr n ε E + E)
  pvrowTotal : |v'.toPvrowTotal - v.toPvrowTotal| ≤ E
  pvrowShaded : |v'.toPvrowShaded - v.toPvrowShaded| ≤ E
  pvrowIllum : |v'.toPvrowIllum - v.toPvrowIllum| ≤ diffErr ε (E + E)
  sky : |v'.toSky - v.toSky| ≤ diffErr ε (E + diffErr ε E)

/-- Light that would come from everything that is not the sky term, at full view. -/
def fastLight (s : IrrStep) : ℝ :=
  |s.albedo| * (|s.gndShaded| + |s.gndIllum|) + |s.rhoFront| * (|s.pvrowShaded| + |s.pvrowIllum|)
    + |s.sky|

/-- Error of `k` operations on products of light with a total of `l` and view factors with errors of
`F`. -/
def lightErr (k : ℕ) (ε F l : ℝ) : ℝ := (grow ε ^ k - 1) * ((1 + F) * l) + F * l

/-- What is stored for the surface `a` is close to `o`, for view factors with errors of `F`. -/
structure FastOutNear (ε F : ℝ) (s : IrrStep) (a : SurfRef) (o' o : FastOut) : Prop where
  skyTerm : |o'.skyTerm - o.skyTerm|
    ≤ (grow ε ^ (s.comp a).length - 1) * ((s.comp a).map fun x => |x|).sum
  gndShaded : |o'.reflectionGndShaded - o.reflectionGndShaded|
    ≤ lightErr 2 ε F (|s.albedo| * |s.gndShaded|)
  gndIllum : |o'.reflectionGndIllum - o.reflectionGndIllum| ≤ lightErr 2 ε F (|s.albedo| * |s.gndIllum|)
  pvrowShaded : |o'.reflectionPvrowShaded - o.reflectionPvrowShaded|
    ≤ lightErr 2 ε F (|s.rhoFront| * |s.pvrowShaded|)
  pvrowIllum : |o'.reflectionPvrowIllum - o.reflectionPvrowIllum|
    ≤ lightErr 2 ε F (|s.rhoFront| * |s.pvrowIllum|)
  isotropic : |o'.isotropic - o.isotropic| ≤ lightErr 1 ε F |s.sky|
  reflection : |o'.reflection - o.reflection| ≤ lightErr 5 ε F (fastLight s - |s.sky|)
  qinc : |o'.qinc - o.qinc| ≤ (grow ε ^ ((s.comp a).length + 7) - 1)
    * ((1 + F) * fastLight s + ((s.comp a).map fun x => |x|).sum) + F * fastLight s

end
end PVF

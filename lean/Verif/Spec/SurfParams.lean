import Verif.Model.SurfParams

/-!
# A surface without its parameters
-/

namespace PVF

/-- `r` looks to the same side and has the same status and parameter names as `s`, but no index and no
values: each of the names has the value `None`, and there is no other key. -/
structure Blank (s r : OSurf) : Prop where
  normal : r.normal = s.normal
  shaded : r.shaded = s.shaded
  names : r.names = s.names
  index : r.index = none
  named : ∀ k ∈ s.names, r.getParam k = some none
  other : ∀ k, k ∉ s.names → r.getParam k = none

/-- The point is on the surface, not near its ends. -/
def CutsAt (q : Pt) (s : OSurf) : Prop :=
  containsPt s.line q ∧ distPt s.line.b1 q > TOL ∧ distPt s.line.b2 q > TOL

end PVF

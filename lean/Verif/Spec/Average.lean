import Mathlib.Algebra.BigOperators.Group.List.Basic
import Mathlib.Data.Real.Basic

/-!
# What an average is
-/

namespace PVF

/-- `m` is an average of the numbers `val a`, with weights `w a`, over the list: `m` is the common
value that would give the same weighted total. -/
def IsAverage {α : Type*} (w val : α → ℝ) (l : List α) (m : ℝ) : Prop :=
  (l.map w).sum * m = (l.map fun a => w a * val a).sum

end PVF

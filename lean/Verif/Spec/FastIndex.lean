import Verif.Model.PVArray

/-!
# Back sides that fast mode can be asked for
-/

namespace PVF

/-- The row number `i` (negative numbers count from the last row backwards, without reaching the
first one) and, if a segment number is given, that segment of the back of this row exist. -/
def BackExists (p : ArrayParams) (i : ℤ) (segment : Option ℤ) : Prop :=
  |i| < p.nRows ∧ ∀ k ∈ segment,
    -(p.nBack (i % p.nRows).toNat : ℤ) ≤ k ∧ k < p.nBack (i % p.nRows).toNat

/-- The surface `a` is on the back of the row number `i`, on the segment asked for if one is given
(negative numbers count from the end backwards). -/
def OnBack (p : ArrayParams) (i : ℤ) (segment : Option ℤ) (a : SurfRef) : Prop :=
  ∃ k < p.nBack (i % p.nRows).toNat, ∃ sh, a = .pv (i % p.nRows).toNat .back k sh ∧
    ∀ j ∈ segment, (k : ℤ) = j % p.nBack (i % p.nRows).toNat

end PVF

import Verif.Model.Dicts

/-!
# What an update of parameters may change
-/

namespace PVF

variable {K V : Type*} [DecidableEq K]

/-- The value that a list of new entries gives to a key: the last one, if there are several. -/
def lastGiven : List (K × V) → K → Option V
  | [], _ => none
  | (k', v) :: rest, k => match lastGiven rest k with
    | some w => some w
    | none => if k' = k then some v else none

/-- Exactly the dictionaries in `S` are changed, and of each exactly the given keys. -/
def UpdatesExactly (S : DictRef → Prop) (new : List (K × V)) (h h' : Dicts K V) : Prop :=
  (∀ r, S r → ∀ k, h' r k = match lastGiven new k with
    | some v => some v
    | none => h r k) ∧ ∀ r, ¬ S r → h' r = h r

/-- Dictionaries of the surfaces of a segment, a side, a row. -/
def OfSegment (r : ℕ) (s : RowSide) (k : ℕ) : DictRef → Prop
  | .surface (.pv r' s' k' _) => r' = r ∧ s' = s ∧ k' = k
  | _ => False

@[inherit_doc OfSegment]
def OfSide (p : ArrayParams) (r : ℕ) (s : RowSide) : DictRef → Prop
  | .surface (.pv r' s' k' _) => r' = r ∧ s' = s ∧ k' < p.nSeg r s
  | _ => False

@[inherit_doc OfSegment]
def OfRow (p : ArrayParams) (r : ℕ) : DictRef → Prop
  | .surface (.pv r' s' k' _) => r' = r ∧ k' < p.nSeg r s'
  | _ => False

/-- Dictionaries of the shaded or of the illuminated ground: as a whole, of its elements and of their
surfaces. -/
def OfGround (p : ArrayParams) (shaded : Bool) : DictRef → Prop
  | .ground sh => sh = shaded
  | .element sh e => sh = shaded ∧ e < p.nRows + (if shaded then 0 else 1)
  | .surface (.gnd sh e z) => sh = shaded ∧ e < p.nRows + (if shaded then 0 else 1) ∧ z ≤ p.nRows
  | _ => False

/-- All dictionaries of an array. -/
def OfArray (p : ArrayParams) (r : DictRef) : Prop :=
  OfGround p true r ∨ OfGround p false r ∨ ∃ i < p.nRows, OfRow p i r

end PVF

import Verif.Spec.Go
/-!
# The groups of a position, counted without any record of them
-/

namespace Spec

/-- The stone on `p` is the first of its group, row by row. -/
def FirstOfGroup (n : Dim) (pos : Pos) (p : Pt) : Prop :=
  OnBoard n p ∧ pos p ≠ none ∧ ∀ q, Linked n pos p q → p.1 < q.1 ∨ (p.1 = q.1 ∧ p.2 ≤ q.2)

open Classical in
/-- The first stones of the groups of a position, one for each group. -/
noncomputable def groupFirsts (n : Dim) (pos : Pos) : List Pt := (points n).filter (fun p => decide (FirstOfGroup n pos p))

/-- The number of groups of a position. -/
noncomputable def groupCount (n : Dim) (pos : Pos) : Nat := (groupFirsts n pos).length

open Classical in
/-- The number of stones of the group of `p`. -/
noncomputable def groupSize (n : Dim) (pos : Pos) (p : Pt) : Nat := ((points n).filter (fun q => decide (Linked n pos p q))).length

end Spec

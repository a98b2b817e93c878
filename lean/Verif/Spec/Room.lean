import Verif.Spec.Go
/-!
# Stones that join one group
-/

namespace Spec
open Model (Color)

/-- The stones of colour `c` next to `p` belong to one group, and there is one. -/
def Joins (n : Dim) (pos : Pos) (p : Pt) (c : Color) : Prop :=
  (∃ q, OnBoard n q ∧ Adj p q ∧ pos q = some c) ∧
    ∀ q r, OnBoard n q → OnBoard n r → Adj p q → Adj p r → pos q = some c → pos r = some c → Linked n pos q r

end Spec

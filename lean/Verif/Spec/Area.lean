import Verif.Spec.Game
/-!
# Points counted for a player by area
-/

namespace Spec
open Model (Color)

/-- `q` counts for `c` by area: a stone of `c`, or territory of `c`. -/
def Held (n : Dim) (pos : Pos) (c : Color) (q : Pt) : Prop := pos q = some c ∨ Territory n pos c q

open Classical in
/-- Number of points that count for `c` by area. -/
noncomputable def area (n : Dim) (pos : Pos) (c : Color) : Nat := ((points n).filter (fun q => decide (Held n pos c q))).length

end Spec

import Verif.Spec.Observe
import Verif.Spec.Local
/-!
# Sequences of checked and unchecked calls on a game
-/

namespace Model

/-- A call on a game: a checked one, or `play`. -/
inductive ROp where
  | ask (c : GOp)
  | force (m : Move)

/-- One call: the result (`play` returns nothing) and the game afterwards. -/
def Game.act (dbg : Bool) (g : Game) : ROp → M (Option PlayError × Game)
  | .ask c => g.call dbg c
  | .force m => do
    let g' ← g.play dbg m
    .ok (none, g')

/-- A sequence of calls: the results, in order, and the game at the end. -/
def Game.acts (dbg : Bool) (g : Game) : List ROp → M (List (Option PlayError) × Game)
  | [] => .ok ([], g)
  | c :: cs => do
    let r ← g.act dbg c
    let rs ← r.2.acts dbg cs
    .ok (r.1 :: rs.1, rs.2)

/-- The call of the abstract game. -/
def ROp.call : ROp → Spec.LCall
  | .ask c => .ask c.call
  | .force m => .force m.call

/-- The coordinate, if any, is on the board. -/
def ROp.OnBoard (n : Dim) : ROp → Prop
  | .ask c => c.OnBoard n
  | .force m => m.OnBoard n

end Model

import Verif.Model.Builder
import Verif.Model.DeadStones
/-!
# Small conversions and the trait methods the search calls

The generic arguments `impl IntoIdx` and `impl IntoCoord` with board indices, `Default`, `Display` of a colour, and
`GameTrait for Game`.
-/

namespace Model

/-- `impl From<MaybeColor> for Color`: src/pieces/stones.rs:30-37. -/
def Color.fromMaybe : MaybeColor → M Color
  | some c => .ok c
  | none => panic

/-- `impl Display for Color`: src/pieces/stones.rs:39-46. -/
def Color.display : Color → String
  | .white => "White"
  | .black => "Black"

/-- `impl From<Coord> for Move`: src/rules/mod.rs:54-58. -/
def Move.fromCoord (c : Coord) : Move := .play c.1 c.2

/-- `impl From<(Coord, Color)> for Stone`: src/pieces/stones.rs:72-76. -/
def Stone.fromPair (p : Coord × Color) : Stone := { coord := p.1, color := p.2 }

/-- `impl<T> From<Point<T>> for Coord`, at `T = Color`: src/pieces/stones.rs:84-88. -/
def Stone.toCoord (s : Stone) : Coord := s.coord

namespace Goban

/-- `impl Default for Goban`: src/pieces/goban.rs:619-623. -/
def default : M Goban := new (19, 19)

/-- `get_connected_stones` with a board index (`IntoCoord for BoardIdx`): src/pieces/goban.rs:315-319, src/pieces/util.rs:76-80. -/
def connectedStonesIdx (dbg : Bool) (g : Goban) (i : Nat) : M (List Stone) := do
  let c ← oneTo2dim g.size i
  g.connectedStones dbg c

/-- `get_connected_groups_idx` with a coordinate (`IntoIdx for Coord`): src/pieces/goban.rs:331-342, src/pieces/util.rs:86-90. -/
def connectedGroupsIdxCoord (dbg : Bool) (g : Goban) (c : Coord) : M (List Nat) :=
  g.connectedGroupsIdx dbg (twoTo1dim g.size c)

end Goban

namespace Game

/-- `GameTrait::player_turn`: src/rules/dead_stones.rs:35-37. -/
def traitTurn (g : Game) : Color := g.turn

/-- `GameTrait::hash`: src/rules/dead_stones.rs:39-41. -/
def traitHash (_ : Game) : Nat := 0

/-- `GameTrait::is_final`: src/rules/dead_stones.rs:43-45. -/
def traitFinal (g : Game) : Bool := g.isOver

/-- `GameTrait::do_move`: src/rules/dead_stones.rs:47-49. -/
def traitMove (dbg : Bool) (g : Game) (m : Move) : M Game := g.play dbg m

/-- `Game::builder`: src/rules/game_builder.rs:170-174. -/
def builder : GameBuilder := GameBuilder.default

end Game
end Model

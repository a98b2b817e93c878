import Verif.Model.Game
/-!
# GameBuilder (src/rules/game_builder.rs)
-/

namespace Model

/-- `struct GameBuilder`: src/rules/game_builder.rs:28-40. -/
structure GameBuilder where
  size : Size
  blackPlayer : String
  whitePlayer : String
  rule : Rule
  komi : Option F32
  handicap : Option Nat
  handicapPoints : List Coord
  turn : Option Color
  moves : List Move
  outcome : Option EndGame
  setup : List Stone
  deriving DecidableEq, Repr

namespace GameBuilder

/-- `impl Default for GameBuilder`: src/rules/game_builder.rs:152-168. -/
def default : GameBuilder :=
  { size := (19, 19), blackPlayer := "", whitePlayer := "", handicapPoints := [], rule := CHINESE, komi := none,
    turn := none, moves := [], outcome := none, setup := [], handicap := none }

/-- `moves`: src/rules/game_builder.rs:43-46. -/
def setMoves (b : GameBuilder) (m : List Move) : GameBuilder := { b with moves := m }
/-- `outcome`: src/rules/game_builder.rs:48-51. -/
def setOutcome (b : GameBuilder) (o : EndGame) : GameBuilder := { b with outcome := some o }
/-- `put_handicap`: src/rules/game_builder.rs:54-57. -/
def putHandicap (b : GameBuilder) (ps : List Coord) : GameBuilder := { b with handicapPoints := ps }
/-- `handicap`: src/rules/game_builder.rs:59-62. -/
def setHandicap (b : GameBuilder) (h : Nat) : GameBuilder := { b with handicap := some h }
/-- `size`: src/rules/game_builder.rs:64-67. -/
def setSize (b : GameBuilder) (s : Size) : GameBuilder := { b with size := s }
/-- `komi`: src/rules/game_builder.rs:69-72. -/
def setKomi (b : GameBuilder) (k : F32) : GameBuilder := { b with komi := some k }
/-- `turn`: src/rules/game_builder.rs:74-77. -/
def setTurn (b : GameBuilder) (c : Color) : GameBuilder := { b with turn := some c }
/-- `black_player`: src/rules/game_builder.rs:79-82. -/
def setBlackPlayer (b : GameBuilder) (s : String) : GameBuilder := { b with blackPlayer := s }
/-- `rule`: src/rules/game_builder.rs:84-87. -/
def setRule (b : GameBuilder) (r : Rule) : GameBuilder := { b with rule := r }
/-- `white_player`: src/rules/game_builder.rs:89-92. -/
def setWhitePlayer (b : GameBuilder) (s : String) : GameBuilder := { b with whitePlayer := s }
/-- `add`: src/rules/game_builder.rs:94-97. -/
def add (b : GameBuilder) (s : Stone) : GameBuilder := { b with setup := b.setup ++ [s] }

/-- The game before the moves are applied: src/rules/game_builder.rs:100-135. -/
def start (dbg : Bool) (b : GameBuilder) : M Game := do
  let goban ← Goban.new b.size
  let handicap := b.handicap.getD b.handicapPoints.length
  let goban ← b.handicapPoints.foldlM (fun g p => Goban.push dbg g p .black) goban
  let goban ← b.setup.foldlM (fun g s => Goban.pushStone dbg g s) goban
  let rule := match b.komi with
    | some k => { b.rule with komi := k }
    | none => b.rule
  let turn := b.turn.getD (if handicap ≠ 0 then .white else .black)
  .ok { goban, passes := 0, prisoners := (0, 0), outcome := b.outcome, turn, rule, handicap, history := [],
        koPoint := none }

/-- `build_inner`: src/rules/game_builder.rs:99-143 (the `Result` is always `Ok`). -/
def buildInner (dbg : Bool) (b : GameBuilder) : M Game := do
  let g ← b.start dbg
  b.moves.foldlM (fun g m => g.play dbg m) g

/-- `build`: src/rules/game_builder.rs:145-149. `take(self)` leaves the default builder behind. -/
def build (dbg : Bool) (b : GameBuilder) : M (Game × GameBuilder) := do
  let g ← b.buildInner dbg
  .ok (g, default)

end GameBuilder
end Model

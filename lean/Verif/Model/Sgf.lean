import Verif.Model.Builder
/-!
# SGF import (src/rules/sgf_bridge.rs)

The text parser is the external crate `sgf_parser`; the model starts from the main line it delivers: a list of nodes,
each a list of tokens.
-/

namespace Model
namespace Sgf

/-- `sgf_parser::Action`. Code: src/rules/sgf_bridge.rs:121-128. -/
inductive Action where
  | move (col line : Nat)
  | pass
  deriving DecidableEq, Repr

/-- `sgf_parser::RuleSet`: only the distinction made by src/rules/sgf_bridge.rs:90-98. -/
inductive RuleSet where
  | japanese
  | chinese
  | other
  deriving DecidableEq, Repr

/-- `sgf_parser::Outcome`. Code: src/rules/sgf_bridge.rs:109-119. -/
inductive Outcome where
  | winnerByResign (c : Color)
  | winnerByForfeit (c : Color)
  | winnerByPoints (c : Color) (p : F32)
  | winnerByTime (c : Color)
  | draw
  deriving DecidableEq, Repr

/-- `sgf_parser::SgfToken`, the variants `from_sgf` looks at; `other` stands for all the rest. Code: src/rules/sgf_bridge.rs:26-76. -/
inductive Token where
  | komi (k : F32)
  | size (x y : Nat)
  | result (o : Outcome)
  | add (color : Color) (x y : Nat)
  | rule (r : RuleSet)
  | handicap (h : Nat)
  | game (isGo : Bool)
  | move (color : Color) (a : Action)
  | unknown (key value : String)
  | other
  deriving DecidableEq, Repr

/-- `impl From<RuleSet> for Rule`: src/rules/sgf_bridge.rs:90-98. -/
def RuleSet.toRule : RuleSet → M Rule
  | .japanese => .ok JAPANESE
  | .chinese => .ok CHINESE
  | .other => panic

/-- `impl From<Outcome> for EndGame`: src/rules/sgf_bridge.rs:109-119. -/
def Outcome.toEndGame : Outcome → EndGame
  | .winnerByResign c => .winnerByResign c
  | .winnerByForfeit c => .winnerByForfeit c
  | .winnerByPoints c p => .winnerByScore c p
  | .winnerByTime c => .winnerByTime c
  | .draw => .draw

/-- `impl From<Action> for Move`: src/rules/sgf_bridge.rs:121-128. -/
def Action.toMove (dbg : Bool) : Action → M Move
  | .move col line => do
    let r ← subU8 dbg line 1
    let c ← subU8 dbg col 1
    .ok (.play r c)
  | .pass => .ok .pass

/-- The `match token` on a root token: src/rules/sgf_bridge.rs:26-60. -/
def rootToken (dbg : Bool) (b : GameBuilder) : Token → M GameBuilder
  | .komi k => .ok (b.setKomi k)
  | .size x y => .ok (b.setSize (u8 x, u8 y))
  | .result o => .ok (b.setOutcome o.toEndGame)
  | .add color x y => do
    let r ← subU8 dbg y 1
    let c ← subU8 dbg x 1
    .ok (b.add { coord := (r, c), color := color })
  | .rule r => do let r ← r.toRule; .ok (b.setRule r)
  | .handicap h => .ok (b.setHandicap h)
  | .game go => do assertM go; .ok b
  | _ => .ok b

/-- The loop over unknown tokens looking for `PL`: src/rules/sgf_bridge.rs:61-75. -/
def plToken (b : GameBuilder) : Token → M GameBuilder
  | .unknown key value =>
    if key = "PL" then
      if value = "B" then .ok (b.setTurn .black)
      else if value = "W" then .ok (b.setTurn .white)
      else panic
    else .ok b
  | _ => .ok b

/-- The root node: src/rules/sgf_bridge.rs:22-77. -/
def rootNode (dbg : Bool) (b : GameBuilder) (tokens : List Token) : M GameBuilder :=
  tokens.foldlM (fun b t => do
    let b ← rootToken dbg b t
    tokens.foldlM plToken b) b

/-- A later node contributes a move iff its first token is a move: src/rules/sgf_bridge.rs:78-83. -/
def nodeMove (dbg : Bool) (tokens : List Token) : M (Option Move) :=
  match tokens with
  | .move _ a :: _ => do let m ← a.toMove dbg; .ok (some m)
  | _ => .ok none

/-- `from_sgf` after parsing: src/rules/sgf_bridge.rs:17-86. -/
def fromNodes (dbg : Bool) (nodes : List (List Token)) : M Game := do
  let b ← match nodes with
    | [] => pure GameBuilder.default
    | root :: _ => rootNode dbg .default root
  let ms ← (nodes.drop 1).mapM (nodeMove dbg)
  (b.setMoves (ms.filterMap id)).buildInner dbg

end Sgf
end Model

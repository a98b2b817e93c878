import Verif.Spec.Observe
/-!
# Winning strategies

What a player can force whatever the opponent does, in terms of `try_play`, `is_over`, `get_outcome` and `get_winner` only. The moves
of the players are passes and stones on the board; nobody resigns (`Resign(c)` is whatever the caller says, see C56).
-/

namespace Model

/-- A pass, or a stone on the board. -/
def Move.Ordinary (n : Dim) : Move → Prop
  | .pass => True
  | .play x y => Spec.OnBoard n (x, y)
  | .resign _ => False

/-- `c` can force a result whose winner satisfies `W`: the game is over with such a result; or `c` is to play and has an accepted move
after which the result can be forced; or the opponent is to play and after every accepted move the result can be forced. The relation
is the least one with these three rules, so the result is reached after finitely many moves. -/
inductive Reaches (dbg : Bool) (ord : List Point → List Point) (n : Dim) (c : Color) (W : Option Color → Prop) : Game → Prop
  | over {g e} : g.isOver = true → g.getOutcome dbg ord = .ok (some e) → W e.getWinner → Reaches dbg ord n c W g
  | own {g mv g'} : g.isOver = false → g.turn = c → mv.Ordinary n → g.tryPlay dbg mv = .ok (none, g') →
      Reaches dbg ord n c W g' → Reaches dbg ord n c W g
  | other {g} : g.isOver = false → g.turn = c.opp →
      (∀ mv g', mv.Ordinary n → g.tryPlay dbg mv = .ok (none, g') → Reaches dbg ord n c W g') → Reaches dbg ord n c W g

/-- `c` can force a win. -/
def Forces (dbg : Bool) (ord : List Point → List Point) (n : Dim) (c : Color) (g : Game) : Prop :=
  Reaches dbg ord n c (fun w => w = some c) g

/-- `c` can make sure not to lose. -/
def Secures (dbg : Bool) (ord : List Point → List Point) (n : Dim) (c : Color) (g : Game) : Prop :=
  Reaches dbg ord n c (fun w => w ≠ some c.opp) g

/-- Komi does not count, or is zero. -/
def Rule.Even (r : Rule) : Prop := r.flagScore.komi = true → r.komi = .fin 0

end Model

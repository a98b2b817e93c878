import Verif.Spec.Game
import Verif.Model.Builder
/-!
# What a user of the crate can observe, and which boards can be reached

These definitions only use the public calls of the model.
-/

namespace Model

/-- The position a board shows through `get_color`. (A coordinate for which `get_color` would panic shows nothing; that
`get_color` does not panic on the board is part of `C01`/`C27`.) -/
def Goban.view (g : Goban) : Spec.Pos := fun p =>
  match g.getColor p with
  | .ok c => c
  | .error _ => none

/-- `k` is the index of a live group (what `chains()`/`get_connected_groups_idx` hand out). -/
def Goban.Live (g : Goban) (k : Nat) : Prop := ∃ grp, g.chains.chainAt k = .ok grp

/-- Boards of size `n` (square, or at least the number of columns divides the number of rows) that can be built with the public board API without breaking its documented preconditions:
`Goban::new`, `push` on empty on-board points, `remove_chain` of live groups. The second index counts the pushes so far
(it only matters for the overflow of the 16-bit group index, see C27). -/
inductive Board (dbg : Bool) (n : Dim) : Nat → Goban → Prop
  | new {g} : n.Fits → Goban.new n.sz = .ok g → Board dbg n 0 g
  | push {m g g' p c} : Board dbg n m g → Spec.OnBoard n p → g.getColor p = .ok none → g.push dbg p c = .ok g' →
      Board dbg n (m + 1) g'
  | remove {m g g' k} : Board dbg n m g → g.Live k → g.removeChain dbg k = .ok g' → Board dbg n m g'

/-- XOR over the stones of a position of the value `index_zobrist` gives for (point, colour). -/
def zobristOf (n : Dim) (pos : Spec.Pos) : BitVec 64 :=
  (Spec.points n).foldl (fun h p => h ^^^ (match pos p with
    | none => 0
    | some c => match indexZobrist (twoTo1dim n.sz p) c with
      | .ok z => z
      | .error _ => 0)) 0

/-- Colour exchange. -/
def swapC (o : Option Color) : Option Color := o.map Color.opp

/-- The coordinate of a move, if it has one, is on the board. -/
def Move.OnBoard (n : Dim) : Move → Prop
  | .play x y => Spec.OnBoard n (x, y)
  | _ => True

/-- Games at their start: `Game::new`, `GameBuilder::build` without moves (distinct on-board handicap and setup points),
`put_handicap` with distinct empty on-board points. The index counts the stones put. -/
inductive Fresh (dbg : Bool) (n : Dim) : Nat → Game → Prop
  | new {size rule g} : n.Fits → GobanSizes.toSize size = n.sz → Game.new size rule = .ok g → Fresh dbg n 0 g
  | build {b g} : n.Fits → GameBuilder.size b = n.sz → b.moves = [] → (b.handicapPoints ++ b.setup.map Stone.coord).Nodup →
      (∀ p ∈ b.handicapPoints ++ b.setup.map Stone.coord, Spec.OnBoard n p) → b.buildInner dbg = .ok g →
      Fresh dbg n (b.handicapPoints.length + b.setup.length) g
  | handicap {m g ps g'} : Fresh dbg n m g → ps.Nodup →
      (∀ p ∈ ps, Spec.OnBoard n p ∧ g.goban.getColor p = .ok none) → g.putHandicap dbg ps = .ok g' →
      Fresh dbg n (m + ps.length) g'

/-- Games reachable with the public calls, `play` being used only on empty on-board points as its documentation asks
(legality is *not* asked: `play` may commit suicide, retake a ko, fill eyes). The index counts the stones put. -/
inductive Reach (dbg : Bool) (n : Dim) : Nat → Game → Prop
  | fresh {m g} : Fresh dbg n m g → Reach dbg n m g
  | play {m g x y g'} : Reach dbg n m g → Spec.OnBoard n (x, y) → g.goban.getColor (x, y) = .ok none →
      g.play dbg (.play x y) = .ok g' → Reach dbg n (m + 1) g'
  | pass {m g g'} : Reach dbg n m g → g.play dbg .pass = .ok g' → Reach dbg n m g'
  | resign {m g c g'} : Reach dbg n m g → g.play dbg (.resign c) = .ok g' → Reach dbg n m g'
  | resume {m g} : Reach dbg n m g → Reach dbg n m g.resume
  | setKomi {m g k} : Reach dbg n m g → Reach dbg n m (g.setKomi k)

/-- Games played only with `try_play` (on-board coordinates), `resume` and `set_komi` from a fresh game whose groups all
have liberties. The index bounds the number of stones put. -/
inductive Legal (dbg : Bool) (n : Dim) : Nat → Game → Prop
  | fresh {m g} : Fresh dbg n m g → Spec.NoDead n g.goban.view → Legal dbg n m g
  | tryPlay {m g mv e g'} : Legal dbg n m g → mv.OnBoard n → g.tryPlay dbg mv = .ok (e, g') → Legal dbg n (m + 1) g'
  | resume {m g} : Legal dbg n m g → Legal dbg n m g.resume
  | setKomi {m g k} : Legal dbg n m g → Legal dbg n m (g.setKomi k)

/-! ### Whole games -/

/-- A call on a game. -/
inductive GOp where
  | try_ (m : Move)
  | resume
  | setKomi (k : F32)

/-- One call: the result (`none` = `Ok`; `resume` and `set_komi` return nothing) and the game afterwards. -/
def Game.call (dbg : Bool) (g : Game) : GOp → M (Option PlayError × Game)
  | .try_ m => g.tryPlay dbg m
  | .resume => .ok (none, g.resume)
  | .setKomi k => .ok (none, g.setKomi k)

/-- A sequence of calls: the results, in order, and the game at the end. -/
def Game.run (dbg : Bool) (g : Game) : List GOp → M (List (Option PlayError) × Game)
  | [] => .ok ([], g)
  | c :: cs => do
    let r ← g.call dbg c
    let rs ← r.2.run dbg cs
    .ok (r.1 :: rs.1, rs.2)

/-- The rule flags as the switches of the abstract game. -/
def IllegalRules.forbidden (r : IllegalRules) : Spec.Forbidden :=
  { ko := r.ko, superko := r.superko, suicide := r.suicide, fillEye := r.fillEye }

/-- `Result` of `try_play` as an answer of the abstract game. -/
def toAnswer : Option PlayError → Spec.Answer
  | none => .ok
  | some .ko => .ko
  | some .suicide => .suicide
  | some .gamePaused => .paused
  | some .fillEye => .fillEye
  | some .pointNotEmpty => .occupied

/-- The call of the abstract game a `try_play` argument stands for. -/
def Move.call : Move → Spec.Call
  | .pass => .pass
  | .resign c => .resign c
  | .play x y => .play (x, y)

/-- The call of the abstract game; the abstract game knows no komi. -/
def GOp.call : GOp → Spec.Call
  | .try_ m => m.call
  | .resume => .resume
  | .setKomi _ => .komi

/-- The coordinate, if any, is on the board. -/
def GOp.OnBoard (n : Dim) : GOp → Prop
  | .try_ m => m.OnBoard n
  | _ => True

/-- The calls a sequence of results shows as accepted. -/
def accepted : List GOp → List (Option PlayError) → List GOp
  | c :: cs, e :: es => if e = none then c :: accepted cs es else accepted cs es
  | _, _ => []

/-- The call returns a value (it neither panics nor runs for ever). -/
def Returns {α} (x : M α) : Prop := ∃ a, x = .ok a

/-- The call returns a value with property `P`, or it panics and `full` holds. -/
def Safe {α} (full : Prop) (x : M α) (P : α → Prop) : Prop := (∃ a, x = .ok a ∧ P a) ∨ (x = panic ∧ full)

/-- As `Reach`, from a fixed start, counting the black and the white stones played. -/
inductive Plays (dbg : Bool) (n : Dim) (g0 : Game) : Nat → Nat → Game → Prop
  | start : Plays dbg n g0 0 0 g0
  | play {b w g x y g'} : Plays dbg n g0 b w g → Spec.OnBoard n (x, y) → g.goban.getColor (x, y) = .ok none →
      g.play dbg (.play x y) = .ok g' →
      Plays dbg n g0 (b + if g.turn = .black then 1 else 0) (w + if g.turn = .white then 1 else 0) g'
  | pass {b w g g'} : Plays dbg n g0 b w g → g.play dbg .pass = .ok g' → Plays dbg n g0 b w g'
  | resign {b w g c g'} : Plays dbg n g0 b w g → g.play dbg (.resign c) = .ok g' → Plays dbg n g0 b w g'
  | resume {b w g} : Plays dbg n g0 b w g → Plays dbg n g0 b w g.resume
  | setKomi {b w g k} : Plays dbg n g0 b w g → Plays dbg n g0 b w (g.setKomi k)

/-- The state of the abstract game after the calls of `cs` that were answered `Ok` (`es` are the answers), starting from the
position and the player to move of `g0`. -/
noncomputable def Game.abstractly (n : Dim) (g0 : Game) (cs : List GOp) (es : List (Option PlayError)) : Spec.State :=
  ((accepted cs es).map GOp.call).foldl (Spec.apply n g0.rule.flagIllegal.forbidden) (.start g0.goban.view g0.turn)

end Model

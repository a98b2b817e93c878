import Verif.Model.Game
/-!
# Dead stones (src/rules/dead_stones.rs, feature `deadstones`)

Not modelled: the Monte-Carlo tree search of the external crate `oxymcts` (lines 67-79, 121-130, 171-177), and the source of
randomness. The move the search chooses and the shuffles are parameters.
-/

namespace Model
namespace Game

/-- `GameTrait::legals_moves`: src/rules/dead_stones.rs:19-33. -/
def legalsMoves (dbg : Bool) (g : Game) : M (List Move) := do
  let l ← g.legalsBy dbg { g.rule.flagIllegal with fillEye := true }
  let moves := l.map (fun c => Move.play c.1 c.2)
  if moves.isEmpty then
    if g.isOver then .ok [] else .ok [.pass]
  else .ok moves

/-- `fast_play_random` on the shuffled candidate list `v`: src/rules/dead_stones.rs:97-112. -/
def fastPlayRandom (dbg : Bool) (g : Game) : List Coord → M Move
  | [] => .ok .pass
  | c :: cs => do
    if (← g.checkPoint dbg c).isNone then
      if ← g.checkEye dbg { coord := c, color := g.turn } then fastPlayRandom dbg g cs
      else .ok (.play c.1 c.2)
    else fastPlayRandom dbg g cs

/-- One round of the `while` loop of `playout`, on the shuffled candidate list `v`: src/rules/dead_stones.rs:114-116. -/
def playoutRound (dbg : Bool) (g : Game) (v : List Coord) : M Game := do
  let m ← g.fastPlayRandom dbg v
  g.play dbg m

/-- `playout`: src/rules/dead_stones.rs:94-119. The shuffle of each round is a parameter. Lean functions return, so the loop
has fuel; `diverge` if the game is not over when it is used up (`C57_playout_partial` gives an amount that is never used up). -/
def playout (dbg : Bool) (shuffle : Nat → List Coord → List Coord) : Nat → Game → M Game
  | 0, g => if g.isOver then .ok g else .error .diverge
  | k + 1, g => do
    if g.isOver then .ok g
    else
      let ps ← g.pseudoLegals
      let g' ← g.playoutRound dbg (shuffle k ps)
      playout dbg shuffle k g'

/-- `GameTrait::get_winner`: src/rules/dead_stones.rs:51-56. -/
def traitWinner (dbg : Bool) (ord : List Point → List Point) (g : Game) : M Color := do
  match ← g.getOutcome dbg ord with
  | none => panic
  | some e => match e.getWinner with
    | none => panic
    | some c => .ok c

/-- `Evaluator::evaluate_leaf`: src/rules/dead_stones.rs:81-88. -/
def evaluateLeaf (dbg : Bool) (ord : List Point → List Point) (g : Game) (turn : Color) : M Nat := do
  let w ← g.traitWinner dbg ord
  .ok (if w = turn then 1 else 0)

/-- The group indices adjacent to each eye, concatenated over all eyes: src/rules/dead_stones.rs:135-153. -/
def eyeChains (dbg : Bool) (g : Game) : M (List Nat) := do
  let ps ← g.pseudoLegals
  let ls ← ps.mapM (fun p => do
    let e ← do
      if ← g.checkEye dbg { coord := p, color := .black } then pure true
      else g.checkEye dbg { coord := p, color := .white }
    if e then g.goban.connectedGroupsIdx dbg (twoTo1dim g.goban.size p) else .ok [])
  .ok ls.flatten

/-- `get_floating_stones`: src/rules/dead_stones.rs:134-165. The map value starts at 0 and is incremented on each further
eye, so `v >= 2` means at least three eyes; `chains().enumerate()` numbers the live groups consecutively. -/
def floatingStones (dbg : Bool) (g : Game) : M (List Nat) := do
  let occ ← g.eyeChains dbg
  .ok ((List.range g.goban.chainsIter.length).filter (fun idx => decide (2 ≤ occ.count idx - 1)))

/-- The loop over one floating group: src/rules/dead_stones.rs:183-190. -/
def stonesGone (final : Goban) : List Stone → M Bool
  | [] => .ok false
  | s :: ss => do
    if (← final.getColor s.coord) ≠ some s.color then .ok true else stonesGone final ss

/-- The last part of `dead_stones_wth_simulations`, for a given final board: src/rules/dead_stones.rs:180-192. -/
def deadChains (dbg : Bool) (g : Game) (final : Goban) : M (List Nat) := do
  let fl ← g.floatingStones dbg
  fl.foldlM (fun acc k => do
    let ss ← g.goban.chainStonesIdx dbg k
    if ← stonesGone final ss then .ok (if acc.contains k then acc else acc ++ [k]) else .ok acc) []

/-- The loop of `dead_stones_wth_simulations`: src/rules/dead_stones.rs:168-179. The tree search (lines 171-177) expands its root by
`legals_moves`; the move it returns is a parameter, which may depend on the round, the game and the list. The loop has fuel;
`diverge` if the game is not over when it is used up (`C67_ends_partial` gives an amount that is never used up). -/
def simulate (dbg : Bool) (best : Nat → Game → List Move → Move) : Nat → Game → M Game
  | 0, g => if g.isOver then .ok g else .error .diverge
  | k + 1, g => do
    if g.isOver then .ok g
    else
      let l ← g.legalsMoves dbg
      let g' ← g.play dbg (best k g l)
      simulate dbg best k g'

/-- `dead_stones_wth_simulations`: src/rules/dead_stones.rs:167-193. The floating groups, which the code computes once before the
loop, are computed before it and again with the lookups. -/
def deadStones (dbg : Bool) (best : Nat → Game → List Move → Move) (fuel : Nat) (g : Game) : M (List Nat) := do
  let _ ← g.floatingStones dbg
  let final ← g.simulate dbg best fuel
  g.deadChains dbg final.goban

end Game
end Model

import Verif.Model.Builder
import Verif.Model.DeadStones
/-!
# Programs shipped with the crate (benches/perft.rs, the example of README.md)

`fast_play_random` (benches/perft.rs:31-47) is the function of the same name of src/rules/dead_stones.rs (`Game.fastPlayRandom`
on a shuffle of `pseudo_legals`), `fast_play_game` (lines 49-55) its play-out (`Game.playout`) from a new game.
`some_plays_from_sgf` (lines 399-415) is run in `Verif/Tests/Conformance.lean`. Not modelled: the `criterion` harness.
-/

namespace Model

/-- `u64 + u64`: panics on overflow in a debug build, wraps in a release build. Code: benches/perft.rs:20-26. -/
def addU64 (dbg : Bool) (x y : Nat) : M Nat :=
  if x + y < 2 ^ 64 then .ok (x + y) else if dbg then panic else .ok ((x + y) % 2 ^ 64)

/-- `Iterator::sum::<u64>()` of `map(f)`, with the sum so far. Code: benches/perft.rs:20-26. -/
def sumU64 {α} (dbg : Bool) (f : α → M Nat) : Nat → List α → M Nat
  | acc, [] => .ok acc
  | acc, a :: as => do
    let x ← f a
    let acc ← addU64 dbg acc x
    sumU64 dbg f acc as

namespace Game

/-- `perft`: benches/perft.rs:11-29. The `u8` depth is a `Nat`. Simplification: the legal moves are listed before the first one is
followed (the iterator is lazy), which matters only for which panic comes first. -/
def perft (dbg : Bool) : Nat → Game → M Nat
  | 0, _ => .ok 1
  | 1, g => do
    let moves ← g.legals dbg
    .ok moves.length
  | d + 2, g => do
    let moves ← g.legals dbg
    sumU64 dbg (fun m => do
      let child ← g.play dbg (.play m.1 m.2)
      perft dbg (d + 1) child) 0 moves

/-- `play_random` on the shuffled list `v` of the legal moves: benches/perft.rs:57-69. -/
def playRandom (dbg : Bool) (g : Game) : List Coord → M Move
  | [] => .ok .pass
  | l :: ls => do
    if ← g.checkEye dbg { coord := l, color := g.turn } then playRandom dbg g ls
    else .ok (.play l.1 l.2)

/-- The loop of `play_game`: benches/perft.rs:71-76 (there from a new 19 × 19 game under the Chinese rule). The shuffle of each round
is a parameter; `diverge` if the game is not over when the fuel is used up. -/
def playGame (dbg : Bool) (shuffle : Nat → List Coord → List Coord) : Nat → Game → M Game
  | 0, g => if g.isOver then .ok g else .error .diverge
  | k + 1, g => do
    if g.isOver then .ok g
    else
      let ls ← g.legals dbg
      let m ← g.playRandom dbg (shuffle k ls)
      let g' ← g.play dbg m
      playGame dbg shuffle k g'

/-- The loop of the example program, `i` rounds to go: README.md:41-56. `choose i l` is the random choice from `l`
(`IteratorRandom::choose`, `None` for an empty iterator); `display_goban` draws with `pretty_string`. -/
def readmeLoop (dbg : Bool) (ord : List Point → List Point) (choose : Nat → List Coord → Option Coord) : Nat → Game → M Game
  | 0, g => .ok g
  | i + 1, g =>
    if g.isOver then .ok g
    else do
      let l ← g.legals dbg
      match choose i l with
      | none => panic
      | some p =>
        let g' ← g.play dbg (.play p.1 p.2)
        let _ ← g'.goban.prettyString
        let _ ← g'.getOutcome dbg ord
        let _ ← g'.goban.toVec
        readmeLoop dbg ord choose i g'

/-- The example program: README.md:34-62, with the feature `history` (the two `unwrap`s of lines 60 and 61 need two entries). -/
def readme (dbg : Bool) (ord : List Point → List Point) (choose : Nat → List Coord → Option Coord) : M Game := do
  let b ← ((GameBuilder.default.setSize (19, 19)).setRule CHINESE).build dbg
  let g ← readmeLoop dbg ord choose 35 b.1
  if g.history.length < 2 then panic else .ok g

end Game
end Model

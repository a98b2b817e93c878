import Verif.Model.Machine
import Verif.Model.Words
import Verif.Model.Single
/-!
# The game in machine words, all at once

`Model/Machine.lean` has the capacities and the `u32` counters, `Model/Words.lean` the flag words and the hash set, `Model/Single.lean`
the words of `f32`; each keeps the simplifications of the others. Here is `Game` with none of them: every field has the type it has in
the code. `Props/Whole.lean` proves that what happens to it is what happens in the main model.
-/

namespace Model

/-- `u32 + u32`: overflow panics in debug builds and wraps in release builds. Code: src/pieces/goban.rs:244, src/rules/game.rs:459-460. -/
def addW (dbg : Bool) (x y : BitVec 32) : M (BitVec 32) := if dbg && x.uaddOverflow y then panic else .ok (x + y)

/-- `struct Rule`: src/rules/mod.rs:117-122. -/
structure MRule where
  komi : Word32
  flagIllegal : FlagUInt
  flagScore : FlagUInt
  deriving DecidableEq

/-- `JAPANESE`: src/rules/mod.rs:124-132. -/
def MRule.JAPANESE : MRule := { komi := 0x40d00000, flagIllegal := japaneseIllegal, flagScore := japaneseScore }

/-- `CHINESE`: src/rules/mod.rs:134-140. -/
def MRule.CHINESE : MRule := { komi := 0x40f00000, flagIllegal := chineseIllegal, flagScore := chineseScore }

/-- `enum EndGame`: src/rules/mod.rs:60-66. -/
inductive MEndGame where
  | winnerByScore (c : Color) (by_ : Word32)
  | winnerByResign (c : Color)
  | winnerByTime (c : Color)
  | winnerByForfeit (c : Color)
  | draw
  deriving DecidableEq

/-- `struct Game`: src/rules/game.rs:18-29. The `IndexSet` is the list of its elements in insertion order; which of them a lookup
compares is the parameter `look` of the functions. -/
structure MGame where
  goban : Goban
  passes : BitVec 32
  prisoners : BitVec 32 × BitVec 32
  outcome : Option MEndGame
  turn : Color
  rule : MRule
  handicap : BitVec 32
  history : List Goban
  koPoint : Option Coord

/-- The board, the player and the ko point, as a game: what `will_capture`, `check_ko`, `check_suicide` and `check_eye` look at
(src/rules/game.rs:280-285, 315-445), in the versions of `Model/Machine.lean`. -/
def MGame.seen (g : MGame) : Game :=
  { goban := g.goban, passes := 0, prisoners := (0, 0), outcome := none, turn := g.turn, rule := JAPANESE, handicap := 0,
    history := [], koPoint := g.koPoint }

/-- A call on the game, with the arguments in words. Code: src/rules/game.rs:65-72, 221-240. -/
inductive MOp where
  | try_ (m : Move)
  | resume
  | setKomi (k : Word32)

namespace MGame

/-- `Game::new`: src/rules/game.rs:40-58. -/
def new (size : GobanSizes) (rule : MRule) : M MGame := do
  let goban ← Goban.new size.toSize
  .ok { goban, turn := .black, prisoners := (0#32, 0#32), passes := 0#32, outcome := none, rule, handicap := 0#32,
        history := [], koPoint := none }

/-- `resume`: src/rules/game.rs:65-67. -/
def resume (g : MGame) : MGame := { g with passes := 0#32 }

/-- `set_komi`: src/rules/game.rs:70-72. -/
def setKomi (g : MGame) (k : Word32) : MGame := { g with rule := { g.rule with komi := k } }

/-- `is_over`: src/rules/game.rs:103-109. -/
def isOver (g : MGame) : Bool := g.outcome.isSome || decide (2#32 ≤ g.passes)

/-- `remove_captured_stones`: src/rules/game.rs:453-462. -/
def removeCapturedStones (dbg : Bool) (g : MGame) (dead : List Nat) (added : Nat) : M MGame := do
  let c ← g.goban.removeCapturedStonesAux32 dbg (!g.rule.flagIllegal.contains IllegalRules.SUICIDE) dead added
  let p0 ← addW dbg g.prisoners.1 (.ofNat 32 c.removed.1)
  let p1 ← addW dbg g.prisoners.2 (.ofNat 32 c.removed.2)
  .ok { g with goban := c.goban, prisoners := (p0, p1), koPoint := c.ko }

/-- `play`: src/rules/game.rs:173-198. -/
def play (dbg : Bool) (look : Lookup) (g : MGame) : Move → M MGame
  | .pass => do
    assertM (decide (g.passes < 2#32))
    let p ← addW dbg g.passes 1#32
    .ok { g with turn := g.turn.opp, koPoint := none, passes := p }
  | .play x y => do
    let h ← historyInsertH look g.history g.goban
    let f ← g.goban.pushWthFeedbackCap dbg (x, y) g.turn
    let g := { g with history := h, goban := f.goban, koPoint := none }
    let g ← g.removeCapturedStones dbg f.dead f.added
    .ok { g with turn := g.turn.opp, passes := 0#32 }
  | .resign player => .ok { g with outcome := some (.winnerByResign player) }

/-- `play_for_verification`: src/rules/game.rs:202-211. -/
def playForVerification (dbg : Bool) (g : MGame) (c : Coord) : M Goban := do
  let f ← g.goban.pushWthFeedbackCap dbg c g.turn
  let s ← f.goban.removeCapturedStonesAux32 dbg (g.rule.flagIllegal.contains IllegalRules.SUICIDE) f.dead f.added
  .ok s.goban

/-- `check_super_ko`: src/rules/game.rs:413-423. -/
def checkSuperKo (dbg : Bool) (look : Lookup) (g : MGame) (s : Stone) : M Bool := do
  if g.history.length ≤ 2 then .ok false
  else if !(← g.seen.willCaptureCap dbg s.coord) then .ok false
  else do
    let toCheck ← g.playForVerification dbg s.coord
    if ← g.seen.checkKoCap dbg s then .ok true else historyContainsH look g.history toCheck

/-- `check_point_by`: src/rules/game.rs:294-312. -/
def checkPointBy (dbg : Bool) (look : Lookup) (g : MGame) (coord : Coord) (r : FlagUInt) : M (Option PlayError) := do
  let stone : Stone := { coord, color := g.turn }
  if (← g.goban.getColor coord).isSome then .ok (some .pointNotEmpty)
  else if ← (if r.contains IllegalRules.SUICIDE then g.seen.checkSuicideCap dbg stone else pure false) then .ok (some .suicide)
  else if ← (if r.contains IllegalRules.KO then g.seen.checkKoCap dbg stone else pure false) then .ok (some .ko)
  else if ← (if r.contains IllegalRules.FILLEYE then g.seen.checkEyeCap dbg stone else pure false) then .ok (some .fillEye)
  else if ← (if r.contains IllegalRules.SUPERKO then g.checkSuperKo dbg look stone else pure false) then .ok (some .ko)
  else .ok none

/-- `legals_by`: src/rules/game.rs:162-165. -/
def legalsBy (dbg : Bool) (look : Lookup) (g : MGame) (r : FlagUInt) : M (List Coord) := do
  let l ← g.goban.getEmptyCoords
  let l ← l.mapM (fun c => do let e ← g.checkPointBy dbg look c r; .ok (if e.isNone then some c else none))
  .ok (l.filterMap id)

/-- `try_play`: src/rules/game.rs:221-238. -/
def tryPlay (dbg : Bool) (look : Lookup) (g : MGame) (m : Move) : M (Option PlayError × MGame) := do
  if g.passes = 2#32 then .ok (some .gamePaused, g)
  else
    match m with
    | .play x y => do
      if (← g.goban.getColor (x, y)) ≠ none then .ok (some .pointNotEmpty, g)
      else
        match ← g.checkPointBy dbg look (x, y) g.rule.flagIllegal with
        | some e => .ok (some e, g)
        | none => do
          let g' ← g.play dbg look m
          .ok (none, g')
    | _ => do
      let g' ← g.play dbg look m
      .ok (none, g')

/-- `put_handicap`: src/rules/game.rs:242-248, with `push` (src/pieces/goban.rs:275-288) on the capacity-checked version. -/
def putHandicap (dbg : Bool) (g : MGame) (points : List Coord) : M MGame := do
  let b ← points.foldlM (fun (b : Goban) p => do
    debugAssert dbg (decide (p.1 < b.size.1))
    debugAssert dbg (decide (p.2 < b.size.2))
    let f ← b.pushWthFeedbackCap dbg p .black
    .ok f.goban) g.goban
  .ok { g with handicap := .ofNat 32 points.length, goban := b, turn := .white }

/-- `calculate_score_by`: src/rules/game.rs:258-276. `nan` chooses the NaN that an addition returns. -/
def calculateScoreBy (dbg : Bool) (nan : Word32 → Word32 → Word32) (ord : List Point → List Point) (g : MGame) (r : FlagUInt) :
    M (Word32 × Word32) := do
  let t ← g.goban.calculateTerritories dbg ord
  let b := Word32.ofNat t.1
  let w := Word32.ofNat t.2
  let (b, w) := if r.contains ScoreRules.PRISONNERS then
    (b.add nan (.ofNat g.prisoners.1.toNat), w.add nan (.ofNat g.prisoners.2.toNat)) else (b, w)
  let (b, w) ← if r.contains ScoreRules.STONES then do
    let n ← g.goban.numberOfStones32 dbg
    .ok (b.add nan (.ofNat n.1), w.add nan (.ofNat n.2)) else .ok (b, w)
  let w := if r.contains ScoreRules.KOMI then w.add nan g.rule.komi else w
  .ok (b, w)

/-- `outcome`: src/rules/game.rs:114-130. -/
def getOutcome (dbg : Bool) (nan : Word32 → Word32 → Word32) (ord : List Point → List Point) (g : MGame) : M (Option MEndGame) :=
  if !g.isOver then .ok none
  else if g.outcome.isSome then .ok g.outcome
  else do
    let s ← g.calculateScoreBy dbg nan ord g.rule.flagScore
    .ok (some (if (Word32.abs (s.1.sub nan s.2)).lt .EPSILON then .draw
      else if s.2.lt s.1 then .winnerByScore .black (s.1.sub nan s.2)
      else .winnerByScore .white (s.2.sub nan s.1)))

/-- One call: the result (`none` = `Ok`) and the game afterwards. Code: src/rules/game.rs:65-72, 221-240. -/
def call (dbg : Bool) (look : Lookup) (g : MGame) : MOp → M (Option PlayError × MGame)
  | .try_ m => g.tryPlay dbg look m
  | .resume => .ok (none, g.resume)
  | .setKomi k => .ok (none, g.setKomi k)

/-- A sequence of calls: the results, in order, and the game at the end. Code: src/rules/game.rs:65-72, 221-240. -/
def run (dbg : Bool) (look : Lookup) (g : MGame) : List MOp → M (List (Option PlayError) × MGame)
  | [] => .ok ([], g)
  | c :: cs => do
    let r ← g.call dbg look c
    let rs ← r.2.run dbg look cs
    .ok (r.1 :: rs.1, rs.2)

end MGame
end Model

import Verif.Model.Territory
import Verif.Model.F32
/-!
# Rules and games (src/rules/mod.rs, src/rules/game.rs)
-/

namespace Model

/-- `enum GobanSizes`: src/rules/mod.rs:16-21. -/
inductive GobanSizes where
  | nineteen
  | nine
  | thirteen
  | custom (h w : Nat)
  deriving DecidableEq, Repr

/-- `impl From<GobanSizes> for Size`: src/rules/mod.rs:23-32. -/
def GobanSizes.toSize : GobanSizes → Size
  | .nine => (9, 9)
  | .thirteen => (13, 13)
  | .nineteen => (19, 19)
  | .custom h w => (u8 h, u8 w)

/-- `impl From<usize> for GobanSizes`: src/rules/mod.rs:34-43. -/
def GobanSizes.ofNat (x : Nat) : M GobanSizes :=
  if x = 9 then .ok .nine else if x = 13 then .ok .thirteen else if x = 19 then .ok .nineteen else panic

/-- `enum Move`: src/rules/mod.rs:47-51. -/
inductive Move where
  | pass
  | resign (c : Color)
  | play (x y : Nat)
  deriving DecidableEq, Repr

/-- `enum EndGame`: src/rules/mod.rs:60-66. -/
inductive EndGame where
  | winnerByScore (c : Color) (by_ : F32)
  | winnerByResign (c : Color)
  | winnerByTime (c : Color)
  | winnerByForfeit (c : Color)
  | draw
  deriving DecidableEq, Repr

/-- `EndGame::get_winner`: src/rules/mod.rs:71-79. -/
def EndGame.getWinner : EndGame → Option Color
  | .winnerByScore p _ => some p
  | .winnerByResign p => some p
  | .winnerByTime p => some p
  | .winnerByForfeit p => some p
  | .draw => none

/-- `enum PlayError`: src/rules/mod.rs:83-89. -/
inductive PlayError where
  | ko
  | suicide
  | gamePaused
  | fillEye
  | pointNotEmpty
  deriving DecidableEq, Repr

/-- `IllegalRules` (bitflags): src/rules/mod.rs:92-104. Simplification: the four bits are four Booleans (proved equivalent: C95). -/
structure IllegalRules where
  ko : Bool
  superko : Bool
  suicide : Bool
  fillEye : Bool
  deriving DecidableEq, Repr

/-- `ScoreRules` (bitflags): src/rules/mod.rs:105-115. Simplification: the three bits are three Booleans (proved equivalent: C95). -/
structure ScoreRules where
  stones : Bool
  komi : Bool
  prisonners : Bool
  deriving DecidableEq, Repr

/-- `struct Rule`: src/rules/mod.rs:118-122. -/
structure Rule where
  komi : F32
  flagIllegal : IllegalRules
  flagScore : ScoreRules
  deriving DecidableEq, Repr

/-- `JAPANESE`: src/rules/mod.rs:124-132. -/
def JAPANESE : Rule :=
  { komi := .fin (13 / 2)
    flagIllegal := { ko := true, superko := false, suicide := true, fillEye := false }
    flagScore := { stones := false, komi := true, prisonners := true } }

/-- `CHINESE`: src/rules/mod.rs:134-140. -/
def CHINESE : Rule :=
  { komi := .fin (15 / 2)
    flagIllegal := { ko := true, superko := true, suicide := true, fillEye := false }
    flagScore := { stones := true, komi := true, prisonners := false } }

/-- `impl FromStr for Rule`: src/rules/mod.rs:142-152 (`none` = `Err`). -/
def Rule.fromStr (s : String) : Option Rule :=
  if s = "JAP" then some JAPANESE else if s = "CHI" then some CHINESE else none

/-- `struct Game`: src/rules/game.rs:18-29. Simplification: `u32` counters are `Nat`; the `IndexSet` is the list of its
elements in insertion order. -/
structure Game where
  goban : Goban
  passes : Nat
  prisoners : Nat × Nat
  outcome : Option EndGame
  turn : Color
  rule : Rule
  handicap : Nat
  history : List Goban
  koPoint : Option Coord
  deriving DecidableEq, Repr

/-- `IndexSet::contains`: membership by `==`. Rust hashes first (`Hash for Goban`) and compares only candidates with a
matching hash; since `==` itself compares the hashes the answer is the same (C95). Code: src/rules/game.rs:419-421. -/
def historyContains (h : List Goban) (g : Goban) : M Bool :=
  match h with
  | [] => .ok false
  | x :: xs => do
    if ← x.beq g then .ok true else historyContains xs g

/-- `IndexSet::insert`: appends when no equal element is present. Code: src/rules/game.rs:184. -/
def historyInsert (h : List Goban) (g : Goban) : M (List Goban) := do
  if ← historyContains h g then .ok h else .ok (h ++ [g])

namespace Game

/-- `Game::new`: src/rules/game.rs:41-59. -/
def new (size : GobanSizes) (rule : Rule) : M Game := do
  let goban ← Goban.new size.toSize
  .ok { goban, turn := .black, prisoners := (0, 0), passes := 0, outcome := none, rule, handicap := 0,
        history := [], koPoint := none }

/-- `resume`: src/rules/game.rs:65-67. -/
def resume (g : Game) : Game := { g with passes := 0 }

/-- `set_komi`: src/rules/game.rs:70-72. -/
def setKomi (g : Game) (k : F32) : Game := { g with rule := { g.rule with komi := k } }

/-- `is_over`: src/rules/game.rs:103-109. -/
def isOver (g : Game) : Bool := if g.outcome.isSome then true else decide (2 ≤ g.passes)

/-- `pseudo_legals`: src/rules/game.rs:134-136. -/
def pseudoLegals (g : Game) : M (List Coord) := g.goban.getEmptyCoords

/-- `pseudo_legals_vec`: src/rules/game.rs:139-151. The capacity computation `size.0 * size.1` is a `u8` product. -/
def pseudoLegalsVec (dbg : Bool) (g : Game) : M (List Coord) := do
  let size := g.goban.size
  let _ ← mulU8 dbg size.1 size.2
  let l ← (Goban.allCoords size).mapM (fun c => do
    match ← g.goban.boardAt (twoTo1dim size c) with
    | none => .ok (some c)
    | some _ => .ok none)
  .ok (l.filterMap id)

/-- `remove_captured_stones`: src/rules/game.rs:453-462. -/
def removeCapturedStones (dbg : Bool) (g : Game) (dead : List Nat) (added : Nat) : M Game := do
  let c ← g.goban.removeCapturedStonesAux dbg (!g.rule.flagIllegal.suicide) dead added
  .ok { g with goban := c.goban, prisoners := (g.prisoners.1 + c.removed.1, g.prisoners.2 + c.removed.2),
               koPoint := c.ko }

/-- `play`: src/rules/game.rs:173-198. -/
def play (dbg : Bool) (g : Game) : Move → M Game
  | .pass => do
    assertM (decide (g.passes < 2))
    .ok { g with turn := g.turn.opp, koPoint := none, passes := g.passes + 1 }
  | .play x y => do
    let h ← historyInsert g.history g.goban
    let f ← g.goban.pushWthFeedback dbg (x, y) g.turn
    let g := { g with history := h, goban := f.goban, koPoint := none }
    let g ← g.removeCapturedStones dbg f.dead f.added
    .ok { g with turn := g.turn.opp, passes := 0 }
  | .resign player => .ok { g with outcome := some (.winnerByResign player) }

/-- `play_for_verification`: src/rules/game.rs:202-211. Note the flag is passed without negation. -/
def playForVerification (dbg : Bool) (g : Game) (c : Coord) : M Goban := do
  let f ← g.goban.pushWthFeedback dbg c g.turn
  let s ← f.goban.removeCapturedStonesAux dbg g.rule.flagIllegal.suicide f.dead f.added
  .ok s.goban

/-- `will_capture`: src/rules/game.rs:280-285. -/
def willCapture (dbg : Bool) (g : Game) (c : Coord) : M Bool := do
  let gs ← g.goban.connectedGroups dbg c
  .ok (gs.any (fun grp => decide (grp.color ≠ g.turn) && grp.isAtari))

/-- Loop body of `helper_check_eye`: src/rules/game.rs:323-338. -/
def eyeStep (g : Game) (color : Color) (acc : List Coord × List Coord × List Coord) (p : Coord) :
    M (List Coord × List Coord × List Coord) :=
  if isCoordValid g.goban.size p then do
    match ← g.goban.getColor p with
    | none => .ok (acc.1, acc.2.1, acc.2.2 ++ [p])
    | some c => if c = color then .ok (acc.1 ++ [p], acc.2.1, acc.2.2) else .ok acc
  else .ok (acc.1, acc.2.1 ++ [p], acc.2.2)

/-- `helper_check_eye`: src/rules/game.rs:315-341. Returns (ally corners, off-board corners, empty corners). -/
def helperCheckEye (dbg : Bool) (g : Game) (point : Coord) (color : Color) :
    M (List Coord × List Coord × List Coord) := do
  let ps ← cornerPoints dbg point
  ps.foldlM (g.eyeStep color) ([], [], [])

/-- The loop over empty corners in `check_eye`: src/rules/game.rs:379-393, falling through to `false` (line 395). -/
def eyeCorners (dbg : Bool) (g : Game) (color : Color) : List Coord → M Bool
  | [] => .ok false
  | c :: cs => do
    if ← g.goban.anyConnectedStone dbg c (fun s => decide (s.color ≠ color)) then .ok false
    else do
      let (ca, cof, _) ← g.helperCheckEye dbg c color
      let n := ca.length + cof.length
      if n = 3 ∨ n = 2 then .ok true else eyeCorners dbg g color cs

/-- `check_eye`: src/rules/game.rs:354-396. -/
def checkEye (dbg : Bool) (g : Game) (s : Stone) : M Bool := do
  if (← g.goban.getColor s.coord).isSome then .ok false
  else do
    if ← g.goban.anyConnectedPoint dbg s.coord (fun p => decide (p.color ≠ some s.color)) then .ok false
    else do
      let (ally, off, empty) ← g.helperCheckEye dbg s.coord s.color
      let total := ally.length + off.length
      if total = 4 then .ok true
      else if total = 3 ∨ total = 2 then g.eyeCorners dbg s.color empty
      else .ok false

/-- `check_ko`: src/rules/game.rs:401-410. -/
def checkKo (dbg : Bool) (g : Game) (s : Stone) : M Bool := do
  if g.koPoint = some s.coord then do
    let gs ← g.goban.connectedGroups dbg s.coord
    .ok (!gs.any (fun grp => grp.isAtari && decide (grp.numStones > 1)))
  else .ok false

/-- `check_super_ko`: src/rules/game.rs:413-423. -/
def checkSuperKo (dbg : Bool) (g : Game) (s : Stone) : M Bool := do
  if g.history.length ≤ 2 then .ok false
  else if !(← g.willCapture dbg s.coord) then .ok false
  else do
    let toCheck ← g.playForVerification dbg s.coord
    if ← g.checkKo dbg s then .ok true else historyContains g.history toCheck

/-- `check_suicide`: src/rules/game.rs:427-445. -/
def checkSuicide (dbg : Bool) (g : Game) (s : Stone) : M Bool := do
  if ← g.goban.hasLiberties dbg s.coord then .ok false
  else do
    let gs ← g.goban.connectedGroups dbg s.coord
    .ok (!gs.any (fun grp => if grp.color = s.color then !grp.isAtari else grp.isAtari))

/-- `check_point_by`: src/rules/game.rs:294-312. -/
def checkPointBy (dbg : Bool) (g : Game) (coord : Coord) (r : IllegalRules) : M (Option PlayError) := do
  let stone : Stone := { coord, color := g.turn }
  if (← g.goban.getColor coord).isSome then .ok (some .pointNotEmpty)
  else if ← (if r.suicide then g.checkSuicide dbg stone else pure false) then .ok (some .suicide)
  else if ← (if r.ko then g.checkKo dbg stone else pure false) then .ok (some .ko)
  else if ← (if r.fillEye then g.checkEye dbg stone else pure false) then .ok (some .fillEye)
  else if ← (if r.superko then g.checkSuperKo dbg stone else pure false) then .ok (some .ko)
  else .ok none

/-- `check_point`: src/rules/game.rs:289-291. -/
def checkPoint (dbg : Bool) (g : Game) (coord : Coord) : M (Option PlayError) :=
  g.checkPointBy dbg coord g.rule.flagIllegal

/-- `legals_by`: src/rules/game.rs:162-165. -/
def legalsBy (dbg : Bool) (g : Game) (r : IllegalRules) : M (List Coord) := do
  let l ← g.pseudoLegals
  let l ← l.mapM (fun c => do let e ← g.checkPointBy dbg c r; .ok (if e.isNone then some c else none))
  .ok (l.filterMap id)

/-- `legals`: src/rules/game.rs:155-157. -/
def legals (dbg : Bool) (g : Game) : M (List Coord) := g.legalsBy dbg g.rule.flagIllegal

/-- `try_play`: src/rules/game.rs:221-238. Returns the error, if any, and the game after the call. -/
def tryPlay (dbg : Bool) (g : Game) (m : Move) : M (Option PlayError × Game) := do
  if g.passes = 2 then .ok (some .gamePaused, g)
  else
    match m with
    | .play x y => do
      if (← g.goban.getColor (x, y)) ≠ none then .ok (some .pointNotEmpty, g)
      else
        match ← g.checkPoint dbg (x, y) with
        | some e => .ok (some e, g)
        | none => do
          let g' ← g.play dbg m
          .ok (none, g')
    | _ => do
      let g' ← g.play dbg m
      .ok (none, g')

/-- `put_handicap`: src/rules/game.rs:242-248. -/
def putHandicap (dbg : Bool) (g : Game) (points : List Coord) : M Game := do
  let b ← g.goban.pushMany dbg points .black
  .ok { g with handicap := points.length, goban := b, turn := .white }

/-- `calculate_score_by`: src/rules/game.rs:258-276. -/
def calculateScoreBy (dbg : Bool) (ord : List Point → List Point) (g : Game) (r : ScoreRules) : M (F32 × F32) := do
  let t ← g.goban.calculateTerritories dbg ord
  let b := F32.ofNat t.1
  let w := F32.ofNat t.2
  let (b, w) := if r.prisonners then (b.add (.ofNat g.prisoners.1), w.add (.ofNat g.prisoners.2)) else (b, w)
  let (b, w) := if r.stones then
    let n := g.goban.numberOfStones
    (b.add (.ofNat n.1), w.add (.ofNat n.2)) else (b, w)
  let w := if r.komi then w.add g.rule.komi else w
  .ok (b, w)

/-- `calculate_score`: src/rules/game.rs:253-255. -/
def calculateScore (dbg : Bool) (ord : List Point → List Point) (g : Game) : M (F32 × F32) :=
  g.calculateScoreBy dbg ord g.rule.flagScore

/-- The comparison of the scores in `outcome`: src/rules/game.rs:122-128. -/
def decideByScore (s : F32 × F32) : EndGame :=
  if F32.lt (F32.abs (F32.sub s.1 s.2)) F32.EPSILON then .draw
  else if F32.lt s.2 s.1 then .winnerByScore .black (F32.sub s.1 s.2)
  else .winnerByScore .white (F32.sub s.2 s.1)

/-- `outcome`: src/rules/game.rs:114-130. -/
def getOutcome (dbg : Bool) (ord : List Point → List Point) (g : Game) : M (Option EndGame) :=
  if !g.isOver then .ok none
  else if g.outcome.isSome then .ok g.outcome
  else do
    let s ← g.calculateScore dbg ord
    .ok (some (decideByScore s))

/-- `impl Default for Game`: src/rules/game.rs:465-469. -/
def default : M Game := Game.new .nineteen CHINESE

end Game
end Model

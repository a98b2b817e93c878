import Verif.Model.DeadStones
/-!
# Flags as words, history as a hash set

The main model keeps rule flags as Booleans and the history as a list searched by `==`. Here are the same functions with the flags as
32-bit words (bitflags 1) and with a history that compares hashes first (indexmap 2). `Props/Words.lean` proves them equal.
-/

namespace Model

/-- `type FlagUInt = u32`: src/rules/mod.rs:91. -/
abbrev FlagUInt := BitVec 32

namespace FlagUInt

/-- `contains` (bitflags 1): `(self.bits & other.bits) == other.bits`. Code: src/rules/game.rs:262, 301. -/
def contains (a b : FlagUInt) : Bool := decide (a &&& b = b)

/-- `from_bits_truncate` (bitflags 1), for a type whose flags together are `all`. Code: src/rules/mod.rs:126-139. -/
def fromBitsTruncate (all a : FlagUInt) : FlagUInt := a &&& all

/-- `from_bits` (bitflags 1). Code: src/rules/mod.rs:92-115. -/
def fromBits (all a : FlagUInt) : Option FlagUInt := if a &&& ~~~ all = 0 then some a else none

/-- `complement`, `!` (bitflags 1): the flags not set. Code: src/rules/mod.rs:92-115. -/
def complement (all a : FlagUInt) : FlagUInt := ~~~ a &&& all

end FlagUInt

/-- `IllegalRules::KO`: src/rules/mod.rs:96. -/
def IllegalRules.KO : FlagUInt := 1#32

/-- `IllegalRules::SUPERKO`: src/rules/mod.rs:98. -/
def IllegalRules.SUPERKO : FlagUInt := 1#32 <<< 1

/-- `IllegalRules::SUICIDE`: src/rules/mod.rs:100. -/
def IllegalRules.SUICIDE : FlagUInt := 1#32 <<< 2

/-- `IllegalRules::FILLEYE`: src/rules/mod.rs:102. -/
def IllegalRules.FILLEYE : FlagUInt := 1#32 <<< 3

/-- `IllegalRules::all()`: the union of the flags of src/rules/mod.rs:94-103. -/
def IllegalRules.allBits : FlagUInt := KO ||| SUPERKO ||| SUICIDE ||| FILLEYE

/-- `ScoreRules::STONES`: src/rules/mod.rs:109. -/
def ScoreRules.STONES : FlagUInt := 1#32

/-- `ScoreRules::KOMI`: src/rules/mod.rs:111. -/
def ScoreRules.KOMI : FlagUInt := 1#32 <<< 1

/-- `ScoreRules::PRISONNERS`: src/rules/mod.rs:113. -/
def ScoreRules.PRISONNERS : FlagUInt := 1#32 <<< 2

/-- `ScoreRules::all()`: the union of the flags of src/rules/mod.rs:107-114. -/
def ScoreRules.allBits : FlagUInt := STONES ||| KOMI ||| PRISONNERS

/-- `JAPANESE.flag_illegal`: src/rules/mod.rs:126-128. -/
def japaneseIllegal : FlagUInt := .fromBitsTruncate IllegalRules.allBits (IllegalRules.KO ||| IllegalRules.SUICIDE)

/-- `JAPANESE.flag_score`: src/rules/mod.rs:129-131. -/
def japaneseScore : FlagUInt := .fromBitsTruncate ScoreRules.allBits (ScoreRules.KOMI ||| ScoreRules.PRISONNERS)

/-- `CHINESE.flag_illegal`: src/rules/mod.rs:136-138. -/
def chineseIllegal : FlagUInt :=
  .fromBitsTruncate IllegalRules.allBits (IllegalRules.KO ||| IllegalRules.SUPERKO ||| IllegalRules.SUICIDE)

/-- `CHINESE.flag_score`: src/rules/mod.rs:139. -/
def chineseScore : FlagUInt := .fromBitsTruncate ScoreRules.allBits (ScoreRules.KOMI ||| ScoreRules.STONES)

/-! ## The history -/

/-- Which entries of the history a lookup looks at, and in which order (`IndexSet` of indexmap 2 with `HashHasher`, src/rules/game.rs:27:
entries in the probe sequence of the hash). The source of indexmap is not part of the project; what is assumed of it is
`Lookup.Complete` in `Props/Words.lean`. -/
abbrev Lookup := List Goban → Goban → List Goban

/-- The search of `IndexSet::contains` among the candidates: the stored hash first (`Hash for Goban`, src/pieces/goban.rs:625-629), then
`==` (src/pieces/goban.rs:631-645). -/
def hashedContains : List Goban → Goban → M Bool
  | [], _ => .ok false
  | x :: xs, g =>
    if x.hashValue = g.hashValue then do
      if ← x.beq g then .ok true else hashedContains xs g
    else hashedContains xs g

/-- `IndexSet::contains` with a given lookup. Code: src/rules/game.rs:419-421. -/
def historyContainsH (look : Lookup) (h : List Goban) (g : Goban) : M Bool := hashedContains (look h g) g

/-- `IndexSet::insert` with a given lookup. Code: src/rules/game.rs:184. -/
def historyInsertH (look : Lookup) (h : List Goban) (g : Goban) : M (List Goban) := do
  if ← historyContainsH look h g then .ok h else .ok (h ++ [g])

namespace Game

/-- `remove_captured_stones`: src/rules/game.rs:453-462. -/
def removeCapturedStonesW (dbg : Bool) (flags : FlagUInt) (g : Game) (dead : List Nat) (added : Nat) : M Game := do
  let c ← g.goban.removeCapturedStonesAux dbg (!flags.contains IllegalRules.SUICIDE) dead added
  .ok { g with goban := c.goban, prisoners := (g.prisoners.1 + c.removed.1, g.prisoners.2 + c.removed.2),
               koPoint := c.ko }

/-- `play`: src/rules/game.rs:173-198. -/
def playW (dbg : Bool) (look : Lookup) (flags : FlagUInt) (g : Game) : Move → M Game
  | .pass => do
    assertM (decide (g.passes < 2))
    .ok { g with turn := g.turn.opp, koPoint := none, passes := g.passes + 1 }
  | .play x y => do
    let h ← historyInsertH look g.history g.goban
    let f ← g.goban.pushWthFeedback dbg (x, y) g.turn
    let g := { g with history := h, goban := f.goban, koPoint := none }
    let g ← g.removeCapturedStonesW dbg flags f.dead f.added
    .ok { g with turn := g.turn.opp, passes := 0 }
  | .resign player => .ok { g with outcome := some (.winnerByResign player) }

/-- `play_for_verification`: src/rules/game.rs:202-211. -/
def playForVerificationW (dbg : Bool) (flags : FlagUInt) (g : Game) (c : Coord) : M Goban := do
  let f ← g.goban.pushWthFeedback dbg c g.turn
  let s ← f.goban.removeCapturedStonesAux dbg (flags.contains IllegalRules.SUICIDE) f.dead f.added
  .ok s.goban

/-- `check_super_ko`: src/rules/game.rs:413-423. -/
def checkSuperKoW (dbg : Bool) (look : Lookup) (flags : FlagUInt) (g : Game) (s : Stone) : M Bool := do
  if g.history.length ≤ 2 then .ok false
  else if !(← g.willCapture dbg s.coord) then .ok false
  else do
    let toCheck ← g.playForVerificationW dbg flags s.coord
    if ← g.checkKo dbg s then .ok true else historyContainsH look g.history toCheck

/-- `check_point_by`: src/rules/game.rs:294-312. `flags` is `self.rule.flag_illegal`, `r` the argument. -/
def checkPointByW (dbg : Bool) (look : Lookup) (flags : FlagUInt) (g : Game) (coord : Coord) (r : FlagUInt) :
    M (Option PlayError) := do
  let stone : Stone := { coord, color := g.turn }
  if (← g.goban.getColor coord).isSome then .ok (some .pointNotEmpty)
  else if ← (if r.contains IllegalRules.SUICIDE then g.checkSuicide dbg stone else pure false) then .ok (some .suicide)
  else if ← (if r.contains IllegalRules.KO then g.checkKo dbg stone else pure false) then .ok (some .ko)
  else if ← (if r.contains IllegalRules.FILLEYE then g.checkEye dbg stone else pure false) then .ok (some .fillEye)
  else if ← (if r.contains IllegalRules.SUPERKO then g.checkSuperKoW dbg look flags stone else pure false) then .ok (some .ko)
  else .ok none

/-- `legals_by`: src/rules/game.rs:162-165. -/
def legalsByW (dbg : Bool) (look : Lookup) (flags : FlagUInt) (g : Game) (r : FlagUInt) : M (List Coord) := do
  let l ← g.pseudoLegals
  let l ← l.mapM (fun c => do let e ← g.checkPointByW dbg look flags c r; .ok (if e.isNone then some c else none))
  .ok (l.filterMap id)

/-- `try_play`: src/rules/game.rs:221-238. -/
def tryPlayW (dbg : Bool) (look : Lookup) (flags : FlagUInt) (g : Game) (m : Move) : M (Option PlayError × Game) := do
  if g.passes = 2 then .ok (some .gamePaused, g)
  else
    match m with
    | .play x y => do
      if (← g.goban.getColor (x, y)) ≠ none then .ok (some .pointNotEmpty, g)
      else
        match ← g.checkPointByW dbg look flags (x, y) flags with
        | some e => .ok (some e, g)
        | none => do
          let g' ← g.playW dbg look flags m
          .ok (none, g')
    | _ => do
      let g' ← g.playW dbg look flags m
      .ok (none, g')

/-- `calculate_score_by`: src/rules/game.rs:258-276. -/
def calculateScoreByW (dbg : Bool) (ord : List Point → List Point) (g : Game) (r : FlagUInt) : M (F32 × F32) := do
  let t ← g.goban.calculateTerritories dbg ord
  let b := F32.ofNat t.1
  let w := F32.ofNat t.2
  let (b, w) := if r.contains ScoreRules.PRISONNERS then (b.add (.ofNat g.prisoners.1), w.add (.ofNat g.prisoners.2)) else (b, w)
  let (b, w) := if r.contains ScoreRules.STONES then
    let n := g.goban.numberOfStones
    (b.add (.ofNat n.1), w.add (.ofNat n.2)) else (b, w)
  let w := if r.contains ScoreRules.KOMI then w.add g.rule.komi else w
  .ok (b, w)

/-- `legals_by(flag_illegal | FILLEYE)` of the search: src/rules/dead_stones.rs:19-24, the part that depends on the flags. -/
def searchLegalsW (dbg : Bool) (look : Lookup) (flags : FlagUInt) (g : Game) : M (List Coord) :=
  g.legalsByW dbg look flags (flags ||| IllegalRules.FILLEYE)

end Game
end Model

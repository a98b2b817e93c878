import Verif.Model.DeadStones
/-!
# Fixed capacities and 32-bit counters

The rest of the model keeps `ArrayVec`s as lists without a bound and `u32` counters as natural numbers. Here are the same functions
with the capacity checks (`ArrayVec::push` panics when the vector is full) and with `u32` arithmetic. `C90` says that nobody can tell
the difference.
-/

namespace Model

/-- `ArrayVec::<_, cap>::push`: panics when the vector is full. Code: src/pieces/goban.rs:159-177. -/
def arrayPush {α} (cap : Nat) (l : List α) (x : α) : M (List α) := if l.length < cap then .ok (l ++ [x]) else panic

/-- `collect()` into an `ArrayVec<_, cap>`: panics when there are more items. Code: src/pieces/goban.rs:322-327. -/
def arrayCollect {α} (cap : Nat) (l : List α) : M (List α) := l.foldlM (arrayPush cap) []

/-- `u32 + u32`. Code: src/pieces/goban.rs:244, src/rules/game.rs:179, 459-460. -/
def addU32 (dbg : Bool) (x y : Nat) : M Nat :=
  if x + y < 2 ^ 32 then .ok (x + y) else if dbg then panic else .ok ((x + y) % 2 ^ 32)

namespace Bits

/-- The loop of `iter_ones` with its `ArrayVec::<usize, 8>`: src/pieces/group.rs:49-57. `fuel` as in `iterChunk`. -/
def iterChunkCap (ix : Nat) : Nat → BitVec 8 → Nat → List Nat → M (List Nat)
  | 0, _, _, acc => .ok acc
  | fuel + 1, chunk, index, acc =>
    if chunk = 0#8 then .ok acc
    else do
      let zeros := trailingZeros chunk
      let index' := index + (zeros + 1)
      let acc ← arrayPush 8 acc (index' - 1 + 8 * ix)
      iterChunkCap ix fuel (chunk >>> (zeros + 1)) index' acc

/-- `iter_ones`: src/pieces/group.rs:47-60. -/
def iterOnesFromCap (ix : Nat) : Liberties → M (List Nat)
  | [] => .ok []
  | c :: cs => do
    let a ← iterChunkCap ix 8 c 0 []
    let b ← iterOnesFromCap (ix + 1) cs
    .ok (a ++ b)

end Bits

/-- `Group::liberties`: src/pieces/group.rs:166-168. -/
def Group.libertiesVecCap (g : Group) : M (List Nat) := Bits.iterOnesFromCap 0 g.liberties

namespace Goban

/-- One iteration of the neighbour loop: src/pieces/goban.rs:159-180. -/
def aroundStepCap (g : Goban) (color : Color) (a : Around) (nb : Nat) : M Around := do
  match ← g.boardAt nb with
  | some k =>
    let ch ← g.chains.chainAt k
    if ch.color = color then
      if a.same.contains k then .ok a else do
        let l ← arrayPush 4 a.same k
        .ok { a with same := l }
    else if a.opp.contains k then .ok a else do
      let l ← arrayPush 4 a.opp k
      .ok { a with opp := l }
  | none => do
    let l ← arrayPush 4 a.libs nb
    .ok { a with libs := l }

/-- One iteration of the loop over the opposing groups: src/pieces/goban.rs:182-190. -/
def takeLibertyCap (dbg : Bool) (pushed : Nat) (st : Goban × List Nat) (ren : Nat) : M (Goban × List Nat) := do
  let (g, dead) := st
  let grp ← g.chains.chainAt ren
  let grp ← grp.removeLiberty dbg pushed
  let g := g.setChain ren grp
  if grp.isDead then do
    let dead ← arrayPush 4 dead ren
    .ok (g, dead)
  else .ok (g, dead)

/-- `push_wth_feedback`: src/pieces/goban.rs:152-225. -/
def pushWthFeedbackCap (dbg : Bool) (g : Goban) (point : Coord) (color : Color) : M Feedback := do
  let pushed := twoTo1dim g.size point
  let nbs ← g.neighborsIdx dbg pushed
  let a ← nbs.foldlM (g.aroundStepCap color) { same := [], opp := [], libs := [] }
  let (g, dead) ← a.opp.foldlM (takeLibertyCap dbg pushed) (g, [])
  let (added, g) ← g.attach dbg pushed color a.same a.libs
  let z ← indexZobrist pushed color
  let g := { g with zobristHash := g.zobristHash ^^^ z }
  if dbg then g.checkIntegrityAll dbg
  .ok { dead := dead, added := added, goban := g }

/-- Loop body of `get_connected_groups_idx`: src/pieces/goban.rs:333-340. -/
def connectedStepCap (g : Goban) (acc : List Nat) (j : Nat) : M (List Nat) := do
  match ← g.boardAt j with
  | some k => if acc.contains k then .ok acc else arrayPush 4 acc k
  | none => .ok acc

/-- `get_connected_groups_idx`: src/pieces/goban.rs:331-342. -/
def connectedGroupsIdxCap (dbg : Bool) (g : Goban) (i : Nat) : M (List Nat) := do
  let nbs ← g.neighborsIdx dbg i
  nbs.foldlM g.connectedStepCap []

/-- `get_connected_groups`: src/pieces/goban.rs:322-327. -/
def connectedGroupsCap (dbg : Bool) (g : Goban) (c : Coord) : M (List Group) := do
  let ks ← g.connectedGroupsIdxCap dbg (twoTo1dim g.size c)
  let l ← ks.mapM (fun k => g.chains.chainAt k)
  arrayCollect 4 l

/-- Body of the loop of `remove_chain`: src/pieces/goban.rs:459-467. -/
def removeStoneStepCap (dbg : Bool) (k : Nat) (color : Color) (g : Goban) (i : Nat) : M Goban := do
  let ns ← g.connectedGroupsIdxCap dbg i
  let ns := ns.filter (fun x => x != k)
  let g ← ns.foldlM (fun (g : Goban) n => do
    let ch ← g.chains.chainAt n
    let ch ← ch.addLiberty dbg i
    .ok (g.setChain n ch)) g
  let z ← indexZobrist i color
  let g := { g with zobristHash := g.zobristHash ^^^ z }
  g.setBoard i none

/-- `remove_chain`: src/pieces/goban.rs:455-470. -/
def removeChainCap (dbg : Bool) (g : Goban) (k : Nat) : M Goban := do
  let chain ← g.chains.chainAt k
  let g ← chain.iterFold dbg g.nextStone (removeStoneStepCap dbg k chain.color) g
  let cs ← g.chains.remove k
  .ok { g with chains := cs }

/-- Counting of removed stones with `u32` counters: src/pieces/goban.rs:242-249, 255-262. -/
def addRemoved32 (dbg : Bool) (r : Nat × Nat) (c : Color) (n : Nat) : M (Nat × Nat) :=
  match c with
  | .white => do let x ← addU32 dbg r.1 n; .ok (x, r.2)
  | .black => do let x ← addU32 dbg r.2 n; .ok (r.1, x)

/-- One iteration of the capture loop: src/pieces/goban.rs:236-251. -/
def captureStep32 (dbg only1 : Bool) (s : Captures) (k : Nat) : M Captures := do
  let ch ← s.goban.chains.chainAt k
  let ko ← if ch.numStones == 1 && only1 then some <$> oneTo2dim s.goban.size ch.origin else pure s.ko
  let r ← addRemoved32 dbg s.removed ch.color ch.numStones
  let g ← s.goban.removeChainCap dbg k
  .ok { removed := r, ko := ko, goban := g }

/-- `remove_captured_stones_aux`: src/pieces/goban.rs:227-267. -/
def removeCapturedStonesAux32 (dbg : Bool) (g : Goban) (suicideAllowed : Bool) (dead : List Nat) (added : Nat) :
    M Captures := do
  let only1 := dead.length == 1
  let s ← dead.foldlM (captureStep32 dbg only1) { removed := (0, 0), ko := none, goban := g }
  let ch ← s.goban.chains.chainAt added
  if suicideAllowed && ch.isDead then do
    let r ← addRemoved32 dbg s.removed ch.color ch.numStones
    let g ← s.goban.removeChainCap dbg added
    .ok { removed := r, ko := none, goban := g }
  else .ok s

/-- Loop body of `number_of_stones`: src/pieces/goban.rs:127-136. -/
def stoneCountStep32 (dbg : Bool) (acc : Nat × Nat) (grp : Group) : M (Nat × Nat) :=
  match grp.color with
  | .white => do let x ← addU32 dbg acc.2 grp.numStones; .ok (acc.1, x)
  | .black => do let x ← addU32 dbg acc.1 grp.numStones; .ok (x, acc.2)

/-- `number_of_stones`: src/pieces/goban.rs:123-139. -/
def numberOfStones32 (dbg : Bool) (g : Goban) : M (Nat × Nat) := g.chains.iter.foldlM (stoneCountStep32 dbg) (0, 0)

/-- Loop body of `get_coords_by_color`: src/pieces/goban.rs:393-401. -/
def coordsStepCap (g : Goban) (color : MaybeColor) (res : List Coord) (i : Nat) : M (List Coord) :=
  match color with
  | none => do let c ← oneTo2dim g.size i; arrayPush BOARD_MAX_LENGTH res c
  | some c => do
    match ← g.boardAt i with
    | none => .ok res
    | some k =>
      let ch ← g.chains.chainAt k
      if ch.color = c then do let p ← oneTo2dim g.size i; arrayPush BOARD_MAX_LENGTH res p else .ok res

/-- `get_coords_by_color`: src/pieces/goban.rs:391-403. -/
def getCoordsByColorCap (dbg : Bool) (g : Goban) (color : MaybeColor) : M (List Coord) := do
  let bound ← mulU8 dbg g.size.1 g.size.2
  (List.range bound).foldlM (g.coordsStepCap color) []

end Goban

namespace Game

/-- Loop body of `helper_check_eye`: src/rules/game.rs:320-338. -/
def eyeStepCap (g : Game) (color : Color) (acc : List Coord × List Coord × List Coord) (p : Coord) :
    M (List Coord × List Coord × List Coord) :=
  if isCoordValid g.goban.size p then do
    match ← g.goban.getColor p with
    | none => do let l ← arrayPush 4 acc.2.2 p; .ok (acc.1, acc.2.1, l)
    | some c => if c = color then do let l ← arrayPush 4 acc.1 p; .ok (l, acc.2.1, acc.2.2) else .ok acc
  else do let l ← arrayPush 4 acc.2.1 p; .ok (acc.1, l, acc.2.2)

/-- `helper_check_eye`: src/rules/game.rs:315-341. -/
def helperCheckEyeCap (dbg : Bool) (g : Game) (point : Coord) (color : Color) :
    M (List Coord × List Coord × List Coord) := do
  let ps ← cornerPoints dbg point
  ps.foldlM (g.eyeStepCap color) ([], [], [])

/-- The loop over empty corners in `check_eye`: src/rules/game.rs:379-393. -/
def eyeCornersCap (dbg : Bool) (g : Game) (color : Color) : List Coord → M Bool
  | [] => .ok false
  | c :: cs => do
    if ← g.goban.anyConnectedStone dbg c (fun s => decide (s.color ≠ color)) then .ok false
    else do
      let (ca, cof, _) ← g.helperCheckEyeCap dbg c color
      let n := ca.length + cof.length
      if n = 3 ∨ n = 2 then .ok true else eyeCornersCap dbg g color cs

/-- `check_eye`: src/rules/game.rs:354-396. -/
def checkEyeCap (dbg : Bool) (g : Game) (s : Stone) : M Bool := do
  if (← g.goban.getColor s.coord).isSome then .ok false
  else do
    if ← g.goban.anyConnectedPoint dbg s.coord (fun p => decide (p.color ≠ some s.color)) then .ok false
    else do
      let (ally, off, empty) ← g.helperCheckEyeCap dbg s.coord s.color
      let total := ally.length + off.length
      if total = 4 then .ok true
      else if total = 3 ∨ total = 2 then g.eyeCornersCap dbg s.color empty
      else .ok false

/-- `remove_captured_stones`: src/rules/game.rs:453-462, with `u32` counters. -/
def removeCapturedStones32 (dbg : Bool) (g : Game) (dead : List Nat) (added : Nat) : M Game := do
  let c ← g.goban.removeCapturedStonesAux32 dbg (!g.rule.flagIllegal.suicide) dead added
  let p0 ← addU32 dbg g.prisoners.1 c.removed.1
  let p1 ← addU32 dbg g.prisoners.2 c.removed.2
  .ok { g with goban := c.goban, prisoners := (p0, p1), koPoint := c.ko }

/-- `play`: src/rules/game.rs:173-198, with `u32` counters. -/
def play32 (dbg : Bool) (g : Game) : Move → M Game
  | .pass => do
    assertM (decide (g.passes < 2))
    let p ← addU32 dbg g.passes 1
    .ok { g with turn := g.turn.opp, koPoint := none, passes := p }
  | .play x y => do
    let h ← historyInsert g.history g.goban
    let f ← g.goban.pushWthFeedbackCap dbg (x, y) g.turn
    let g := { g with history := h, goban := f.goban, koPoint := none }
    let g ← g.removeCapturedStones32 dbg f.dead f.added
    .ok { g with turn := g.turn.opp, passes := 0 }
  | .resign player => .ok { g with outcome := some (.winnerByResign player) }

/-- `play_for_verification`: src/rules/game.rs:202-211. -/
def playForVerification32 (dbg : Bool) (g : Game) (c : Coord) : M Goban := do
  let f ← g.goban.pushWthFeedbackCap dbg c g.turn
  let s ← f.goban.removeCapturedStonesAux32 dbg g.rule.flagIllegal.suicide f.dead f.added
  .ok s.goban

/-- `will_capture`: src/rules/game.rs:280-285. -/
def willCaptureCap (dbg : Bool) (g : Game) (c : Coord) : M Bool := do
  let gs ← g.goban.connectedGroupsCap dbg c
  .ok (gs.any (fun grp => decide (grp.color ≠ g.turn) && grp.isAtari))

/-- `check_ko`: src/rules/game.rs:401-410. -/
def checkKoCap (dbg : Bool) (g : Game) (s : Stone) : M Bool := do
  if g.koPoint = some s.coord then do
    let gs ← g.goban.connectedGroupsCap dbg s.coord
    .ok (!gs.any (fun grp => grp.isAtari && decide (grp.numStones > 1)))
  else .ok false

/-- `check_super_ko`: src/rules/game.rs:413-423. -/
def checkSuperKo32 (dbg : Bool) (g : Game) (s : Stone) : M Bool := do
  if g.history.length ≤ 2 then .ok false
  else if !(← g.willCaptureCap dbg s.coord) then .ok false
  else do
    let toCheck ← g.playForVerification32 dbg s.coord
    if ← g.checkKoCap dbg s then .ok true else historyContains g.history toCheck

/-- `check_suicide`: src/rules/game.rs:427-445. -/
def checkSuicideCap (dbg : Bool) (g : Game) (s : Stone) : M Bool := do
  if ← g.goban.hasLiberties dbg s.coord then .ok false
  else do
    let gs ← g.goban.connectedGroupsCap dbg s.coord
    .ok (!gs.any (fun grp => if grp.color = s.color then !grp.isAtari else grp.isAtari))

/-- `check_point_by`: src/rules/game.rs:294-312. -/
def checkPointBy32 (dbg : Bool) (g : Game) (coord : Coord) (r : IllegalRules) : M (Option PlayError) := do
  let stone : Stone := { coord, color := g.turn }
  if (← g.goban.getColor coord).isSome then .ok (some .pointNotEmpty)
  else if ← (if r.suicide then g.checkSuicideCap dbg stone else pure false) then .ok (some .suicide)
  else if ← (if r.ko then g.checkKoCap dbg stone else pure false) then .ok (some .ko)
  else if ← (if r.fillEye then g.checkEyeCap dbg stone else pure false) then .ok (some .fillEye)
  else if ← (if r.superko then g.checkSuperKo32 dbg stone else pure false) then .ok (some .ko)
  else .ok none

/-- `try_play`: src/rules/game.rs:221-238. -/
def tryPlay32 (dbg : Bool) (g : Game) (m : Move) : M (Option PlayError × Game) := do
  if g.passes = 2 then .ok (some .gamePaused, g)
  else
    match m with
    | .play x y => do
      if (← g.goban.getColor (x, y)) ≠ none then .ok (some .pointNotEmpty, g)
      else
        match ← g.checkPointBy32 dbg (x, y) g.rule.flagIllegal with
        | some e => .ok (some e, g)
        | none => do
          let g' ← g.play32 dbg m
          .ok (none, g')
    | _ => do
      let g' ← g.play32 dbg m
      .ok (none, g')

end Game
end Model

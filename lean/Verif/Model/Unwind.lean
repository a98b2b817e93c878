import Verif.Model.Game
/-!
# What a panic leaves behind

`Model.Goban` and `Model.Game` give the result of a call. Here the functions that change a board or a game in place are written again with
the value they have changed so far kept when they panic, as a caller sees it who catches the panic with `std::panic::catch_unwind` or
through the lock of a `Mutex` that another thread poisoned. Every step is one assignment of the code.
-/

namespace Model

/-- A call on `&mut self`: what it returns or how it ends, and the value of `self` afterwards in both cases. The panics are those of
`Model.M`. Code: the `&mut self` of src/pieces/goban.rs:152 and src/rules/game.rs:173, 221. -/
abbrev U (σ α : Type) := EStateM Fault σ α

/-- An expression that reads `self` and changes nothing, for instance `self.chains[i]`: src/pieces/goban.rs:168. -/
def rd {σ α : Type} (f : σ → M α) : U σ α := fun s =>
  match f s with
  | .ok a => .ok a s
  | .error e => .error e s

/-- One assignment, which either takes place or panics before anything is written, for instance `self.board[i] = v`:
src/pieces/goban.rs:202. -/
def st {σ : Type} (f : σ → M σ) : U σ Unit := fun s =>
  match f s with
  | .ok s' => .ok () s'
  | .error e => .error e s

/-- The result of a call when the value of `self` after a panic is forgotten. This is how `Model.Goban` and `Model.Game` see the calls. -/
def U.toM {σ α : Type} (u : U σ α) (s : σ) : M (α × σ) :=
  match u s with
  | .ok a s' => .ok (a, s')
  | .error e _ => .error e

/-- The value of `self` after a call, whether it returned or panicked. -/
def U.after {σ α : Type} (u : U σ α) (s : σ) : σ :=
  match u s with
  | .ok _ s' => s'
  | .error _ s' => s'

namespace Goban

/-- `update_chain_indexes_in_board`: src/pieces/goban.rs:473-484. Simplification: the walk through `next_stone` is done before the entries
are written; the loop does not write to `next_stone`, so this differs only if the walk itself fails, which it does not on boards
reached through the interface (`C131_index_loop_board`). -/
def updateChainIndexesInBoardU (dbg : Bool) (k : Nat) : U Goban Unit := do
  let ch ← rd (fun g => g.chains.chainAt k)
  let pts ← rd (fun g => ch.iter dbg g.nextStone)
  rd (fun _ => debugAssert dbg (pts.getLast?.map u16 == some ch.last))
  pts.foldlM (fun _ point => st (fun g => if u16 k = 65535 then panic else g.setBoard point (some (u16 k)))) ()

/-- `create_chain`: src/pieces/goban.rs:500-510. The entry of `next_stone` and the group record are written before the index of the group is
checked. -/
def createChainU (dbg : Bool) (origin : Nat) (color : Color) (liberties : List Nat) : U Goban Nat := do
  let lib ← rd (fun _ => liberties.foldlM (fun l i => Bits.set true i l) EMPTY_LIBERTIES)
  st (fun g => g.setNext origin (u16 origin))
  let k ← rd (fun g => .ok (g.chains.putFreeSpot (Group.newWithLiberties color origin lib)).1)
  st (fun g => .ok { g with chains := (g.chains.putFreeSpot (Group.newWithLiberties color origin lib)).2 })
  updateChainIndexesInBoardU dbg k
  pure k

/-- `add_stone_to_chain`: src/pieces/goban.rs:512-529. -/
def addStoneToChainU (dbg : Bool) (k : Nat) (stone : Nat) : U Goban Unit := do
  let grp ← rd (fun g => g.chains.chainAt k)
  if stone < grp.origin then
    st (fun g => g.setNext stone grp.origin)
    st (fun g => g.setNext grp.last (u16 stone))
    st (fun g => .ok (g.setChain k { grp with origin := u16 stone }))
  else
    st (fun g => g.setNext grp.last (u16 stone))
    st (fun g => g.setNext stone grp.origin)
    st (fun g => .ok (g.setChain k { grp with last := u16 stone }))
  let grp ← rd (fun g => g.chains.chainAt k)
  let n ← rd (fun _ => addU16 dbg grp.numStones 1)
  st (fun g => .ok (g.setChain k { grp with numStones := n }))
  rd (fun g => if dbg then do
    let l ← ({ grp with numStones := n } : Group).iter dbg g.nextStone
    debugAssert dbg (l.getLast?.map u16 == some grp.last)
  else .ok ())

/-- `merge_strings`: src/pieces/goban.rs:531-578. -/
def mergeStringsU (dbg : Bool) (k1 k2 : Nat) : U Goban Unit := do
  let c1 ← rd (fun g => g.chains.chainAt k1)
  let c2 ← rd (fun g => g.chains.chainAt k2)
  rd (fun _ => assertM (c1.color == c2.color))
  rd (fun _ => assertM (k1 != k2))
  let lib := Bits.merge c1.liberties c2.liberties
  let c1' : Group :=
    if c1.origin > c2.origin then { c1 with liberties := lib, origin := c2.origin }
    else { c1 with liberties := lib, last := c2.last }
  st (fun g => .ok (g.setChain k1 c1'))
  st (fun g => g.swapNext c1.last c2.last)
  let n ← rd (fun _ => addU16 dbg c1.numStones c2.numStones)
  st (fun g => .ok (g.setChain k1 { c1' with numStones := n }))
  updateChainIndexesInBoardU dbg k1
  st (fun g => do let cs ← g.chains.remove k2; .ok { g with chains := cs })

/-- One iteration of the loop that takes a liberty from each opposing group: src/pieces/goban.rs:184-190. -/
def takeLibertyU (dbg : Bool) (pushed : Nat) (dead : List Nat) (ren : Nat) : U Goban (List Nat) := do
  let grp ← rd (fun g => g.chains.chainAt ren)
  let grp ← rd (fun _ => grp.removeLiberty dbg pushed)
  st (fun g => .ok (g.setChain ren grp))
  pure (if grp.isDead then dead ++ [ren] else dead)

/-- One iteration of the merge loop: src/pieces/goban.rs:207-216. -/
def mergeStepU (dbg : Bool) (toMerge : Nat) (adj : Nat) : U Goban Nat := do
  let ca ← rd (fun g => g.chains.chainAt adj)
  let ct ← rd (fun g => g.chains.chainAt toMerge)
  if ca.numberOfLiberties < ct.numberOfLiberties then
    mergeStringsU dbg toMerge adj
    pure toMerge
  else
    mergeStringsU dbg adj toMerge
    pure adj

/-- The `match number_of_neighbors_strings`: src/pieces/goban.rs:192-220. Simplification: `remove_liberty` and `union_liberties_slice` of lines
198-200 are one step; they fail only on points outside the board. -/
def attachU (dbg : Bool) (pushed : Nat) (color : Color) (same libs : List Nat) : U Goban Nat :=
  match same with
  | [] => createChainU dbg pushed color libs
  | [only] => do
    st (fun g => do
      let ch ← g.chains.chainAt only
      let ch ← ch.removeLiberty dbg pushed
      let ch ← ch.unionLibertiesSlice libs
      .ok (g.setChain only ch))
    addStoneToChainU dbg only pushed
    st (fun g => if u16 only = 65535 then panic else g.setBoard pushed (some (u16 only)))
    pure only
  | same => do
    let toMerge ← createChainU dbg pushed color libs
    let toMerge ← same.foldlM (mergeStepU dbg) toMerge
    st (fun g => do
      let ch ← g.chains.chainAt toMerge
      let ch ← ch.removeLiberty dbg pushed
      .ok (g.setChain toMerge ch))
    pure toMerge

/-- `push_wth_feedback`: src/pieces/goban.rs:152-225. Returns the groups without liberties and the group of the new stone. -/
def pushWthFeedbackU (dbg : Bool) (point : Coord) (color : Color) : U Goban (List Nat × Nat) := do
  let pushed ← rd (fun g => .ok (twoTo1dim g.size point))
  let nbs ← rd (fun g => g.neighborsIdx dbg pushed)
  let a ← rd (fun g => nbs.foldlM (g.aroundStep color) { same := [], opp := [], libs := [] })
  let dead ← a.opp.foldlM (takeLibertyU dbg pushed) []
  let added ← attachU dbg pushed color a.same a.libs
  st (fun g => do let z ← indexZobrist pushed color; .ok { g with zobristHash := g.zobristHash ^^^ z })
  rd (fun g => if dbg then g.checkIntegrityAll dbg else .ok ())
  pure (dead, added)

/-- `push`: src/pieces/goban.rs:275-288. -/
def pushU (dbg : Bool) (point : Coord) (color : Color) : U Goban Unit := do
  rd (fun g => debugAssert dbg (decide (point.1 < g.size.1)))
  rd (fun g => debugAssert dbg (decide (point.2 < g.size.2)))
  let _ ← pushWthFeedbackU dbg point color
  pure ()

/-- The loop over the stones of a group, `Group.iterFoldFrom`, with a body that changes `self`: src/pieces/goban.rs:458-468. -/
def iterFoldFromU {σ : Type} (dbg : Bool) (nextStone : List Nat) (origin : Nat) (body : Nat → U σ Unit) : Nat → Nat → U σ Unit
  | 0, _ => rd (fun _ => .error .diverge)
  | fuel + 1, cur =>
    match nextStone[cur]? with
    | none => rd (fun _ => panic)
    | some nx =>
      if nx = origin then body cur
      else if dbg && nx == cur then rd (fun _ => panic)
      else do
        body cur
        iterFoldFromU dbg nextStone origin body fuel nx

/-- `update_chain_indexes_in_board` with the entries written between the steps of the walk: src/pieces/goban.rs:473-484. On every board on
which the walk succeeds it is `updateChainIndexesInBoardU`: `C131_index_loop`. -/
def indexLoopU (dbg : Bool) (k : Nat) : U Goban Unit := do
  rd (fun g => if dbg then do
    let ch ← g.chains.chainAt k
    let pts ← ch.iter dbg g.nextStone
    debugAssert dbg (pts.getLast?.map u16 == some ch.last)
  else .ok ())
  let ch ← rd (fun g => g.chains.chainAt k)
  let next ← rd (fun g => .ok g.nextStone)
  iterFoldFromU dbg next ch.origin
    (fun point => st (fun g => if u16 k = 65535 then panic else g.setBoard point (some (u16 k)))) (next.length + 1) ch.origin

/-- Body of the loop of `remove_chain` for one stone: src/pieces/goban.rs:459-467. -/
def removeStoneStepU (dbg : Bool) (k : Nat) (color : Color) (i : Nat) : U Goban Unit := do
  let ns ← rd (fun g => g.connectedGroupsIdx dbg i)
  (ns.filter (fun x => x != k)).foldlM (fun _ n => st (fun g => do
    let ch ← g.chains.chainAt n
    let ch ← ch.addLiberty dbg i
    .ok (g.setChain n ch))) ()
  st (fun g => do let z ← indexZobrist i color; .ok { g with zobristHash := g.zobristHash ^^^ z })
  st (fun g => g.setBoard i none)

/-- `remove_chain`: src/pieces/goban.rs:455-470. The body of the loop runs between the steps of the walk. -/
def removeChainU (dbg : Bool) (k : Nat) : U Goban Unit := do
  let chain ← rd (fun g => g.chains.chainAt k)
  let next ← rd (fun g => .ok g.nextStone)
  iterFoldFromU dbg next chain.origin (removeStoneStepU dbg k chain.color) (next.length + 1) chain.origin
  st (fun g => do let cs ← g.chains.remove k; .ok { g with chains := cs })

/-- One iteration of the capture loop: src/pieces/goban.rs:236-251. The counters and the ko point are local variables. -/
def captureStepU (dbg only1 : Bool) (s : (Nat × Nat) × Option Coord) (k : Nat) : U Goban ((Nat × Nat) × Option Coord) := do
  let ch ← rd (fun g => g.chains.chainAt k)
  let ko ← rd (fun g => if ch.numStones == 1 && only1 then some <$> oneTo2dim g.size ch.origin else pure s.2)
  removeChainU dbg k
  pure (addRemoved s.1 ch.color ch.numStones, ko)

/-- `remove_captured_stones_aux`: src/pieces/goban.rs:227-267. -/
def removeCapturedStonesAuxU (dbg suicideAllowed : Bool) (dead : List Nat) (added : Nat) : U Goban ((Nat × Nat) × Option Coord) := do
  let s ← dead.foldlM (captureStepU dbg (dead.length == 1)) ((0, 0), none)
  let ch ← rd (fun g => g.chains.chainAt added)
  if suicideAllowed && ch.isDead then do
    removeChainU dbg added
    pure (addRemoved s.1 ch.color ch.numStones, none)
  else pure s

end Goban

namespace Game

/-- A call on `self.goban`: src/rules/game.rs:185. -/
def onGoban {α : Type} (u : U Goban α) : U Game α := fun g =>
  match u g.goban with
  | .ok a b => .ok a { g with goban := b }
  | .error e b => .error e { g with goban := b }

/-- `remove_captured_stones`: src/rules/game.rs:453-462. -/
def removeCapturedStonesU (dbg : Bool) (dead : List Nat) (added : Nat) : U Game Unit := do
  let suicide ← rd (fun g => .ok g.rule.flagIllegal.suicide)
  let (removed, ko) ← onGoban (Goban.removeCapturedStonesAuxU dbg (!suicide) dead added)
  st (fun g => .ok { g with prisoners := (g.prisoners.1 + removed.1, g.prisoners.2) })
  st (fun g => .ok { g with prisoners := (g.prisoners.1, g.prisoners.2 + removed.2) })
  st (fun g => .ok { g with koPoint := ko })

/-- `play`: src/rules/game.rs:173-198. The position goes into the history before the stone is put. -/
def playU (dbg : Bool) : Move → U Game Unit
  | .pass => do
    rd (fun g => assertM (decide (g.passes < 2)))
    st (fun g => .ok { g with turn := g.turn.opp })
    st (fun g => .ok { g with koPoint := none })
    st (fun g => .ok { g with passes := g.passes + 1 })
  | .play x y => do
    st (fun g => do let h ← historyInsert g.history g.goban; .ok { g with history := h })
    let turn ← rd (fun g => .ok g.turn)
    let (dead, added) ← onGoban (Goban.pushWthFeedbackU dbg (x, y) turn)
    st (fun g => .ok { g with koPoint := none })
    removeCapturedStonesU dbg dead added
    st (fun g => .ok { g with turn := g.turn.opp })
    st (fun g => .ok { g with passes := 0 })
  | .resign player => st (fun g => .ok { g with outcome := some (.winnerByResign player) })

/-- `try_play`: src/rules/game.rs:221-238. -/
def tryPlayU (dbg : Bool) (m : Move) : U Game (Option PlayError) := do
  if (← rd (fun g => .ok g.passes)) = 2 then pure (some .gamePaused)
  else
    match m with
    | .play x y =>
      if (← rd (fun g => g.goban.getColor (x, y))) ≠ none then pure (some .pointNotEmpty)
      else
        match ← rd (fun g => g.checkPoint dbg (x, y)) with
        | some e => pure (some e)
        | none => do
          playU dbg m
          pure none
    | _ => do
      playU dbg m
      pure none

end Game
end Model

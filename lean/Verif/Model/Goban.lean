import Verif.Model.Group
import Verif.Model.Coord
import Verif.Model.Zobrist
/-!
# The board (src/pieces/goban.rs)
-/

namespace Model

/-- `BOARD_MAX_LENGTH = 19 * 19`: src/pieces/goban.rs:22-23. -/
def BOARD_MAX_LENGTH : Nat := 361

/-- `struct Goban`: src/pieces/goban.rs:28-35. `NonMaxU16` values are `Nat`. -/
structure Goban where
  chains : Groups
  board : List (Option Nat)
  nextStone : List Nat
  size : Size
  zobristHash : BitVec 64
  deriving DecidableEq, Repr

/-- `struct Point<MaybeColor>`: src/pieces/stones.rs:49-53. -/
structure Point where
  coord : Coord
  color : MaybeColor
  deriving DecidableEq, Repr

/-- `type Stone = Point<Color>`: src/pieces/stones.rs:55. -/
structure Stone where
  coord : Coord
  color : Color
  deriving DecidableEq, Repr

/-- `impl TryFrom<Point> for Stone`, then `.ok()`: src/pieces/stones.rs:57-70. -/
def Point.toStone? (p : Point) : Option Stone := p.color.map (fun c => { coord := p.coord, color := c })

namespace Goban

/-- `Goban::new`: src/pieces/goban.rs:58-71. -/
def new (size : Size) : M Goban := do
  assertM (decide (size.1 ≤ 19) && decide (size.2 ≤ 19))
  .ok { size := size, zobristHash := 0, board := List.replicate BOARD_MAX_LENGTH none,
        nextStone := List.replicate BOARD_MAX_LENGTH 0, chains := [] }

/-- `self.board[i]` (read). Code: src/pieces/goban.rs:165. -/
def boardAt (g : Goban) (i : Nat) : M (Option Nat) :=
  match g.board[i]? with
  | none => panic
  | some o => .ok o

/-- `self.board[i] = o`. Code: src/pieces/goban.rs:202, 467. -/
def setBoard (g : Goban) (i : Nat) (o : Option Nat) : M Goban :=
  if i < g.board.length then .ok { g with board := g.board.set i o } else panic

/-- `self.next_stone[i] = v`. Code: src/pieces/goban.rs:506. -/
def setNext (g : Goban) (i v : Nat) : M Goban :=
  if i < g.nextStone.length then .ok { g with nextStone := g.nextStone.set i v } else panic

/-- Write access through `IndexMut for Groups` (the slot must be live): src/pieces/group.rs:199-209. -/
def setChain (g : Goban) (i : Nat) (grp : Group) : Goban := { g with chains := g.chains.set i (some grp) }

/-- `chains()`: src/pieces/goban.rs:82-84. -/
def chainsIter (g : Goban) : List Group := g.chains.iter

/-- `neighbors_coords`: src/pieces/goban.rs:488-490. -/
def neighborsCoords (dbg : Bool) (g : Goban) (c : Coord) : M (List Coord) := validCoords dbg c g.size

/-- `neighbors_idx`: src/pieces/goban.rs:493-497. -/
def neighborsIdx (dbg : Bool) (g : Goban) (i : Nat) : M (List Nat) := do
  let c ← oneTo2dim g.size i
  let l ← g.neighborsCoords dbg c
  .ok (l.map (twoTo1dim g.size))

/-- `iter_stones`: src/pieces/goban.rs:600-602. -/
def iterStones (dbg : Bool) (g : Goban) (k : Nat) : M (List Nat) := do
  let ch ← g.chains.chainAt k
  ch.iter dbg g.nextStone

/-- `get_color` at a board index: src/pieces/goban.rs:345-348. -/
def getColorIdx (g : Goban) (i : Nat) : M MaybeColor := do
  match ← g.boardAt i with
  | none => .ok none
  | some k =>
    let ch ← g.chains.chainAt k
    .ok (some ch.color)

/-- `get_color` at a coordinate (`IntoIdx for Coord`): src/pieces/goban.rs:345-348, src/pieces/util.rs:86-90. -/
def getColor (g : Goban) (c : Coord) : M MaybeColor := g.getColorIdx (twoTo1dim g.size c)

/-- `check_integrity_ren`: src/pieces/goban.rs:582-597. `iter.next().unwrap()` is the head (the iterator always yields
at least its origin). -/
def checkIntegrityRen (dbg : Bool) (g : Goban) (k : Nat) : M Unit := do
  let ch ← g.chains.chainAt k
  let l ← g.iterStones dbg k
  assertM (l.head? == some ch.origin)
  assertM (l.getLast? == some ch.last)
  assertM (u16 l.length == ch.numStones)

/-- `check_integrity_all`: src/pieces/goban.rs:606-610. -/
def checkIntegrityAll (dbg : Bool) (g : Goban) : M Unit :=
  g.chains.iterWithIndex.forM (fun (k, _) => g.checkIntegrityRen dbg k)

/-- `update_chain_indexes_in_board`: src/pieces/goban.rs:473-484, including the debug assertion and
`NonMaxU16::new(chain_idx as u16).unwrap()`. -/
def updateChainIndexesInBoard (dbg : Bool) (g : Goban) (k : Nat) : M Goban := do
  let ch ← g.chains.chainAt k
  let pts ← ch.iter dbg g.nextStone
  debugAssert dbg (pts.getLast?.map u16 == some ch.last)
  pts.foldlM (fun g point =>
    if u16 k = 65535 then panic else g.setBoard point (some (u16 k))) g

/-- `create_chain`: src/pieces/goban.rs:500-510. Returns the new group index and the board. -/
def createChain (dbg : Bool) (g : Goban) (origin : Nat) (color : Color) (liberties : List Nat) : M (Nat × Goban) := do
  let lib ← liberties.foldlM (fun l i => Bits.set true i l) EMPTY_LIBERTIES
  let chain := Group.newWithLiberties color origin lib
  let g ← g.setNext origin (u16 origin)
  let (k, cs) := g.chains.putFreeSpot chain
  let g := { g with chains := cs }
  let g ← g.updateChainIndexesInBoard dbg k
  .ok (k, g)

/-- `add_stone_to_chain`: src/pieces/goban.rs:512-529. -/
def addStoneToChain (dbg : Bool) (g : Goban) (k : Nat) (stone : Nat) : M Goban := do
  let grp ← g.chains.chainAt k
  let (g, grp) ←
    if stone < grp.origin then do
      let g ← g.setNext stone grp.origin
      let g ← g.setNext grp.last (u16 stone)
      pure (g, { grp with origin := u16 stone })
    else do
      let g ← g.setNext grp.last (u16 stone)
      let g ← g.setNext stone grp.origin
      pure (g, { grp with last := u16 stone })
  let n ← addU16 dbg grp.numStones 1
  let grp := { grp with numStones := n }
  let g := g.setChain k grp
  if dbg then
    let l ← grp.iter dbg g.nextStone
    debugAssert dbg (l.getLast?.map u16 == some grp.last)
  .ok g

/-- `slice::swap`: bounds-checked. Code: src/pieces/goban.rs:571-572. -/
def swapNext (g : Goban) (a b : Nat) : M Goban :=
  match g.nextStone[a]?, g.nextStone[b]? with
  | some va, some vb => .ok { g with nextStone := (g.nextStone.set a vb).set b va }
  | _, _ => panic

/-- `merge_strings`: src/pieces/goban.rs:531-578. The `split_at_mut` of lines 539-549 only serves the borrow checker:
it yields the slots `chain1_idx` and `chain2_idx`. -/
def mergeStrings (dbg : Bool) (g : Goban) (k1 k2 : Nat) : M Goban := do
  let c1 ← g.chains.chainAt k1
  let c2 ← g.chains.chainAt k2
  assertM (c1.color == c2.color)
  assertM (k1 != k2)
  let lib := Bits.merge c1.liberties c2.liberties
  let c1' : Group :=
    if c1.origin > c2.origin then { c1 with liberties := lib, origin := c2.origin }
    else { c1 with liberties := lib, last := c2.last }
  let g ← g.swapNext c1.last c2.last
  let n ← addU16 dbg c1.numStones c2.numStones
  let g := g.setChain k1 { c1' with numStones := n }
  let g ← g.updateChainIndexesInBoard dbg k1
  let cs ← g.chains.remove k2
  .ok { g with chains := cs }

/-- The three vectors filled by the neighbour loop of `push_wth_feedback`: src/pieces/goban.rs:159-161. -/
structure Around where
  same : List Nat
  opp : List Nat
  libs : List Nat

/-- One iteration of the neighbour loop: src/pieces/goban.rs:164-180. Simplification: `ArrayVec` capacity 4 is not
modelled; a point has at most four neighbours (`Proofs.neighbors_length_le`). -/
def aroundStep (g : Goban) (color : Color) (a : Around) (nb : Nat) : M Around := do
  match ← g.boardAt nb with
  | some k =>
    let ch ← g.chains.chainAt k
    if ch.color = color then
      if a.same.contains k then .ok a else .ok { a with same := a.same ++ [k] }
    else if a.opp.contains k then .ok a else .ok { a with opp := a.opp ++ [k] }
  | none => .ok { a with libs := a.libs ++ [nb] }

/-- One iteration of the loop that takes a liberty from each opposing group: src/pieces/goban.rs:184-190. -/
def takeLiberty (dbg : Bool) (pushed : Nat) (st : Goban × List Nat) (ren : Nat) : M (Goban × List Nat) := do
  let (g, dead) := st
  let grp ← g.chains.chainAt ren
  let grp ← grp.removeLiberty dbg pushed
  let g := g.setChain ren grp
  .ok (g, if grp.isDead then dead ++ [ren] else dead)

/-- One iteration of the merge loop: src/pieces/goban.rs:207-216. State: board and `to_merge`. -/
def mergeStep (dbg : Bool) (st : Goban × Nat) (adj : Nat) : M (Goban × Nat) := do
  let (g, toMerge) := st
  let ca ← g.chains.chainAt adj
  let ct ← g.chains.chainAt toMerge
  if ca.numberOfLiberties < ct.numberOfLiberties then do
    let g ← g.mergeStrings dbg toMerge adj
    .ok (g, toMerge)
  else do
    let g ← g.mergeStrings dbg adj toMerge
    .ok (g, adj)

/-- The `match number_of_neighbors_strings`: src/pieces/goban.rs:192-220. -/
def attach (dbg : Bool) (g : Goban) (pushed : Nat) (color : Color) (same libs : List Nat) : M (Nat × Goban) :=
  match same with
  | [] => g.createChain dbg pushed color libs
  | [only] => do
    let ch ← g.chains.chainAt only
    let ch ← ch.removeLiberty dbg pushed
    let ch ← ch.unionLibertiesSlice libs
    let g := g.setChain only ch
    let g ← g.addStoneToChain dbg only pushed
    if u16 only = 65535 then panic
    else do
      let g ← g.setBoard pushed (some (u16 only))
      .ok (only, g)
  | same => do
    let (toMerge, g) ← g.createChain dbg pushed color libs
    let (g, toMerge) ← same.foldlM (mergeStep dbg) (g, toMerge)
    let ch ← g.chains.chainAt toMerge
    let ch ← ch.removeLiberty dbg pushed
    .ok (toMerge, g.setChain toMerge ch)

/-- Result of `push_wth_feedback`: the groups without liberties, the group of the new stone, the new board.
Code: src/pieces/goban.rs:152-156. -/
structure Feedback where
  dead : List Nat
  added : Nat
  goban : Goban

/-- `push_wth_feedback`: src/pieces/goban.rs:152-225. -/
def pushWthFeedback (dbg : Bool) (g : Goban) (point : Coord) (color : Color) : M Feedback := do
  let pushed := twoTo1dim g.size point
  let nbs ← g.neighborsIdx dbg pushed
  let a ← nbs.foldlM (g.aroundStep color) { same := [], opp := [], libs := [] }
  let (g, dead) ← a.opp.foldlM (takeLiberty dbg pushed) (g, [])
  let (added, g) ← g.attach dbg pushed color a.same a.libs
  let z ← indexZobrist pushed color
  let g := { g with zobristHash := g.zobristHash ^^^ z }
  if dbg then g.checkIntegrityAll dbg
  .ok { dead := dead, added := added, goban := g }

/-- `push`: src/pieces/goban.rs:275-288. -/
def push (dbg : Bool) (g : Goban) (point : Coord) (color : Color) : M Goban := do
  debugAssert dbg (decide (point.1 < g.size.1))
  debugAssert dbg (decide (point.2 < g.size.2))
  let f ← g.pushWthFeedback dbg point color
  .ok f.goban

/-- `push_stone`: src/pieces/goban.rs:292-294. -/
def pushStone (dbg : Bool) (g : Goban) (s : Stone) : M Goban := g.push dbg s.coord s.color

/-- `push_many`: src/pieces/goban.rs:298-302. -/
def pushMany (dbg : Bool) (g : Goban) (points : List Coord) (value : Color) : M Goban :=
  points.foldlM (fun g p => g.push dbg p value) g

/-- Loop body of `get_connected_groups_idx`: src/pieces/goban.rs:334-340. -/
def connectedStep (g : Goban) (acc : List Nat) (j : Nat) : M (List Nat) := do
  match ← g.boardAt j with
  | some k => .ok (if acc.contains k then acc else acc ++ [k])
  | none => .ok acc

/-- `get_connected_groups_idx` at a board index: src/pieces/goban.rs:331-342. -/
def connectedGroupsIdx (dbg : Bool) (g : Goban) (i : Nat) : M (List Nat) := do
  let nbs ← g.neighborsIdx dbg i
  nbs.foldlM g.connectedStep []

/-- `get_connected_groups`: src/pieces/goban.rs:322-327 (at a coordinate). -/
def connectedGroups (dbg : Bool) (g : Goban) (c : Coord) : M (List Group) := do
  let ks ← g.connectedGroupsIdx dbg (twoTo1dim g.size c)
  ks.mapM (fun k => g.chains.chainAt k)

/-- Body of the loop of `remove_chain` for one stone: src/pieces/goban.rs:459-467. -/
def removeStoneStep (dbg : Bool) (k : Nat) (color : Color) (g : Goban) (i : Nat) : M Goban := do
  let ns ← g.connectedGroupsIdx dbg i
  let ns := ns.filter (fun x => x != k)
  let g ← ns.foldlM (fun (g : Goban) n => do
    let ch ← g.chains.chainAt n
    let ch ← ch.addLiberty dbg i
    .ok (g.setChain n ch)) g
  let z ← indexZobrist i color
  let g := { g with zobristHash := g.zobristHash ^^^ z }
  g.setBoard i none

/-- `remove_chain`: src/pieces/goban.rs:455-470. -/
def removeChain (dbg : Bool) (g : Goban) (k : Nat) : M Goban := do
  let chain ← g.chains.chainAt k
  let g ← chain.iterFold dbg g.nextStone (removeStoneStep dbg k chain.color) g
  let cs ← g.chains.remove k
  .ok { g with chains := cs }

/-- Result of `remove_captured_stones_aux`. Code: src/pieces/goban.rs:227-232. -/
structure Captures where
  removed : Nat × Nat
  ko : Option Coord
  goban : Goban

/-- Counting of removed stones: White stones go to the first component (src/pieces/goban.rs:242-249, 255-262). -/
def addRemoved (r : Nat × Nat) (c : Color) (n : Nat) : Nat × Nat :=
  match c with
  | .white => (r.1 + n, r.2)
  | .black => (r.1, r.2 + n)

/-- One iteration of the capture loop: src/pieces/goban.rs:236-251. -/
def captureStep (dbg only1 : Bool) (s : Captures) (k : Nat) : M Captures := do
  let ch ← s.goban.chains.chainAt k
  let ko ← if ch.numStones == 1 && only1 then some <$> oneTo2dim s.goban.size ch.origin else pure s.ko
  let g ← s.goban.removeChain dbg k
  .ok { removed := addRemoved s.removed ch.color ch.numStones, ko := ko, goban := g }

/-- `remove_captured_stones_aux`: src/pieces/goban.rs:227-267. Simplification: the `u32` counters are `Nat`. -/
def removeCapturedStonesAux (dbg : Bool) (g : Goban) (suicideAllowed : Bool) (dead : List Nat) (added : Nat) :
    M Captures := do
  let only1 := dead.length == 1
  let s ← dead.foldlM (captureStep dbg only1) { removed := (0, 0), ko := none, goban := g }
  let ch ← s.goban.chains.chainAt added
  if suicideAllowed && ch.isDead then do
    let g ← s.goban.removeChain dbg added
    .ok { removed := addRemoved s.removed ch.color ch.numStones, ko := none, goban := g }
  else .ok s

/-- Integer square root. Code: src/pieces/goban.rs:39. -/
def isqrt : Nat → Nat
  | 0 => 0
  | n + 1 => let r := isqrt n; if (r + 1) * (r + 1) ≤ n + 1 then r + 1 else r

/-- Loop body of `From<&[MaybeColor]> for Goban`: src/pieces/goban.rs:41-48. -/
def ofSliceStep (dbg : Bool) (size : Nat) (g : Goban) (e : MaybeColor × Nat) : M Goban := do
  let coord ← oneTo2dim (size, size) e.2
  match e.1 with
  | none => .ok g
  | some c => g.push dbg coord c

/-- `impl From<&[MaybeColor]> for Goban`: src/pieces/goban.rs:37-51. `(len as f32).sqrt() as u8` is the integer square
root saturated at 255 (proved of the words of `f32` in `C96_side`). -/
def ofSlice (dbg : Bool) (stones : List MaybeColor) : M Goban := do
  let size := min (isqrt stones.length) 255
  let game ← Goban.new (size, size)
  stones.zipIdx.foldlM (ofSliceStep dbg size) game

/-- `to_vec`: src/pieces/goban.rs:97-106. -/
def toVec (g : Goban) : M (List MaybeColor) :=
  g.board.mapM (fun o => match o with
    | none => .ok none
    | some k => do let ch ← g.chains.chainAt k; .ok (some ch.color))

/-- `slice::chunks_exact(k)` for `k > 0`: full chunks only; the remainder is dropped. `fuel` = length. Code: src/pieces/goban.rs:111. -/
def chunksExact {α} (k : Nat) : Nat → List α → List (List α)
  | 0, _ => []
  | fuel + 1, l => if l.length < k then [] else l.take k :: chunksExact k fuel (l.drop k)

/-- `matrix`: src/pieces/goban.rs:109-119. `chunks_exact(0)` panics. -/
def matrix (g : Goban) : M (List (List MaybeColor)) := do
  assertM (g.size.2 != 0)
  (chunksExact g.size.2 g.board.length g.board).mapM (fun line => line.mapM (fun o => match o with
    | none => .ok none
    | some k => do let ch ← g.chains.chainAt k; .ok (some ch.color)))

/-- Loop body of `number_of_stones`: src/pieces/goban.rs:127-136. -/
def stoneCountStep (acc : Nat × Nat) (grp : Group) : Nat × Nat :=
  match grp.color with
  | .white => (acc.1, acc.2 + grp.numStones)
  | .black => (acc.1 + grp.numStones, acc.2)

/-- `number_of_stones`: src/pieces/goban.rs:123-139. -/
def numberOfStones (g : Goban) : Nat × Nat := g.chains.iter.foldl stoneCountStep (0, 0)

/-- `chain_stones` with a `usize`: src/pieces/goban.rs:86-94. -/
def chainStonesIdx (dbg : Bool) (g : Goban) (k : Nat) : M (List Stone) := do
  let ch ← g.chains.chainAt k
  let l ← ch.iter dbg g.nextStone
  l.mapM (fun e => do let c ← oneTo2dim g.size e; .ok { coord := c, color := ch.color })

/-- `chain_stones` with a coordinate: `into_idx` turns it into a *board* index, which is then used as a group index:
src/pieces/goban.rs:86-88, src/pieces/util.rs:86-90. -/
def chainStonesCoord (dbg : Bool) (g : Goban) (c : Coord) : M (List Stone) :=
  g.chainStonesIdx dbg (twoTo1dim g.size c)

/-- `get_connected_points`: src/pieces/goban.rs:306-311. -/
def connectedPoints (dbg : Bool) (g : Goban) (c : Coord) : M (List Point) := do
  let l ← g.neighborsCoords dbg c
  l.mapM (fun p => do let col ← g.getColor p; .ok { coord := p, color := col })

/-- `get_connected_stones`: src/pieces/goban.rs:315-319. -/
def connectedStones (dbg : Bool) (g : Goban) (c : Coord) : M (List Stone) := do
  let l ← g.connectedPoints dbg c
  .ok (l.filterMap Point.toStone?)

/-- `get_stones`: src/pieces/goban.rs:352-359. -/
def getStones (g : Goban) : M (List Stone) := do
  let l ← g.board.zipIdx.mapM (fun (o, i) => match o with
    | none => .ok none
    | some k => do
      let c ← oneTo2dim g.size i
      let ch ← g.chains.chainAt k
      .ok (some ({ coord := c, color := ch.color } : Stone)))
  .ok (l.filterMap id)

/-- `get_empty_idx`: src/pieces/goban.rs:368-373 (as written: keeps the `Some` cells). -/
def getEmptyIdx (g : Goban) : List Nat := g.board.zipIdx.filterMap (fun (o, i) => o.map (fun _ => i))

/-- `get_empty_coords`: src/pieces/goban.rs:375-387. The slice panics when the product exceeds 361. -/
def getEmptyCoords (g : Goban) : M (List Coord) := do
  let boardLength := g.size.1 * g.size.2
  assertM (decide (boardLength ≤ g.board.length))
  let l ← (g.board.take boardLength).zipIdx.mapM (fun (o, i) => match o with
    | none => do let c ← oneTo2dim g.size i; .ok (some c)
    | some _ => .ok none)
  .ok (l.filterMap id)

/-- `get_coords_by_color`: src/pieces/goban.rs:391-403. The loop bound is a `u8` product. -/
def getCoordsByColor (dbg : Bool) (g : Goban) (color : MaybeColor) : M (List Coord) := do
  let bound ← mulU8 dbg g.size.1 g.size.2
  let l ← (List.range bound).mapM (fun i => match color with
    | none => do let c ← oneTo2dim g.size i; .ok (some c)
    | some c => do
      match ← g.boardAt i with
      | none => .ok none
      | some k =>
        let ch ← g.chains.chainAt k
        if ch.color = c then do let p ← oneTo2dim g.size i; .ok (some p) else .ok none)
  .ok (l.filterMap id)

/-- `get_stones_by_color`: src/pieces/goban.rs:363-366. -/
def getStonesByColor (dbg : Bool) (g : Goban) (color : MaybeColor) : M (List Point) := do
  let l ← g.getCoordsByColor dbg color
  .ok (l.map (fun c => { coord := c, color := color }))

/-- `get_liberties`: src/pieces/goban.rs:407-410. -/
def getLiberties (dbg : Bool) (g : Goban) (c : Coord) : M (List Coord) := do
  let l ← g.neighborsCoords dbg c
  let l ← l.mapM (fun p => do let col ← g.getColor p; .ok (if col.isNone then some p else none))
  .ok (l.filterMap id)

/-- `get_liberties(c).next().is_some()` on the neighbours listed, item by item: src/pieces/goban.rs:407-416. -/
def firstLiberty (g : Goban) : List Coord → M Bool
  | [] => .ok false
  | p :: ps => do
    let col ← g.getColor p
    if col.isNone then .ok true else firstLiberty g ps

/-- `has_liberties`: src/pieces/goban.rs:414-416. The colour of a neighbour is looked up only if those before it show a stone. -/
def hasLiberties (dbg : Bool) (g : Goban) (c : Coord) : M Bool := do
  let l ← g.neighborsCoords dbg c
  g.firstLiberty l

/-- `any(f)` over the points of the list, item by item: no colour is looked up after the first point that satisfies `f`.
Code: src/rules/game.rs:362-364. -/
def anyConnected (g : Goban) (f : Point → Bool) : List Coord → M Bool
  | [] => .ok false
  | p :: ps => do
    let col ← g.getColor p
    if f { coord := p, color := col } then .ok true else anyConnected g f ps

/-- `get_connected_points(c).any(f)`: src/pieces/goban.rs:306-311 consumed as in src/rules/game.rs:361-365. -/
def anyConnectedPoint (dbg : Bool) (g : Goban) (c : Coord) (f : Point → Bool) : M Bool := do
  let l ← g.neighborsCoords dbg c
  g.anyConnected f l

/-- `get_connected_stones(c).any(f)`: src/pieces/goban.rs:315-319 consumed as in src/rules/game.rs:381-385. -/
def anyConnectedStone (dbg : Bool) (g : Goban) (c : Coord) (f : Stone → Bool) : M Bool :=
  g.anyConnectedPoint dbg c (fun p => p.toStone?.any f)

/-- The glyph of one intersection in `pretty_string`: src/pieces/goban.rs:423-446. -/
def glyph (size : Size) (i j : Nat) : MaybeColor → Char
  | some .black => '●'
  | some .white => '○'
  | none =>
    match i == 0, i == size.1 - 1, j == 0, j == size.2 - 1 with
    | true, _, true, _ => '┏'
    | true, _, _, true => '┓'
    | _, true, true, _ => '┗'
    | _, true, _, true => '┛'
    | true, _, _, _ => '┯'
    | _, true, _, _ => '┷'
    | _, _, true, _ => '┠'
    | _, _, _, true => '┨'
    | _, _, _, _ => '┼'

/-- `pretty_string`: src/pieces/goban.rs:419-451, as a list of characters. -/
def prettyString (g : Goban) : M (List Char) := do
  let lines ← (List.range g.size.1).mapM (fun i => do
    let cs ← (List.range g.size.2).mapM (fun j => do
      let col ← g.getColor (i, j)
      .ok (glyph g.size i j col))
    .ok (cs ++ ['\n']))
  .ok lines.flatten

/-- `impl Hash for Goban`: the value written to the hasher: src/pieces/goban.rs:625-629. -/
def hashValue (g : Goban) : BitVec 64 := g.zobristHash

/-- `impl PartialEq for Goban`: src/pieces/goban.rs:631-647. Simplification: the two nested loops are over the list of
coordinates in the same order, stopping at the first difference. -/
def beqFrom (a b : Goban) : List Coord → M Bool
  | [] => .ok true
  | c :: cs => do
    let x ← a.getColor c
    let y ← b.getColor c
    if x = y then beqFrom a b cs else .ok false

/-- All coordinates `(x, y)` with `x < size.0`, `y < size.1`, row by row: src/pieces/goban.rs:637-638. -/
def allCoords (size : Size) : List Coord :=
  (List.range size.1).flatMap (fun x => (List.range size.2).map (fun y => (x, y)))

/-- `impl PartialEq for Goban`: src/pieces/goban.rs:631-647. -/
def beq (a b : Goban) : M Bool :=
  if a.size ≠ b.size ∨ a.zobristHash ≠ b.zobristHash then .ok false
  else beqFrom a b (allCoords a.size)

end Goban
end Model

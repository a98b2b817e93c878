import Verif.Model.Game
/-!
# Lazy listings, call by call

The functions that return `impl Iterator` do nothing but build the iterator; each call of `next` looks for one item. The other files
of the model give the collected lists; here are the iterators themselves.
-/

namespace Model

/-- A chain of `map`, `filter` and `filter_map` over an iterator (of a slice or of an `ArrayVec`) whose items are fixed when it is
made. `rest` are the items not yet drawn, `f` is what the chain makes of one of them (`none`: filtered out).
Code: used at src/pieces/goban.rs:306-319, 352-359, 407-410 and src/rules/game.rs:155-165. -/
structure Listing (α β : Type) where
  rest : List α
  f : α → M (Option β)

namespace Listing
variable {α β γ : Type}

/-- The search for the next item: `core::iter::FilterMap::next`, which is `find_map` of the inner iterator.
Code: used at src/pieces/goban.rs:306-319, 352-359, 407-410 and src/rules/game.rs:155-165. -/
def draw (f : α → M (Option β)) : List α → M (Option β × List α)
  | [] => .ok (none, [])
  | a :: as => do
    match ← f a with
    | some b => .ok (some b, as)
    | none => draw f as

/-- `next`. Returns the item and the iterator afterwards.
Code: used at src/pieces/goban.rs:306-319, 352-359, 407-410 and src/rules/game.rs:155-165. -/
def next (it : Listing α β) : M (Option β × Listing α β) := do
  let (o, rest) ← draw it.f it.rest
  .ok (o, { it with rest })

/-- `k` calls of `next`: the items and the iterator afterwards.
Code: used at src/pieces/goban.rs:306-319, 352-359, 407-410 and src/rules/game.rs:155-165. -/
def nexts : Nat → Listing α β → M (List (Option β) × Listing α β)
  | 0, it => .ok ([], it)
  | k + 1, it => do
    let (o, it) ← it.next
    let (os, it) ← nexts k it
    .ok (o :: os, it)

/-- `Iterator::filter` put on top. Code: used at src/pieces/goban.rs:306-319, 352-359, 407-410 and src/rules/game.rs:155-165. -/
def filter (it : Listing α β) (p : β → M Bool) : Listing α β :=
  { rest := it.rest, f := fun a => do
      match ← it.f a with
      | none => .ok none
      | some b => do if ← p b then .ok (some b) else .ok none }

/-- `Iterator::filter_map` with a closure that does not panic put on top.
Code: used at src/pieces/goban.rs:306-319, 352-359, 407-410 and src/rules/game.rs:155-165. -/
def filterMap (it : Listing α β) (k : β → Option γ) : Listing α γ :=
  { rest := it.rest, f := fun a => do
      match ← it.f a with
      | none => .ok none
      | some b => .ok (k b) }

/-- An `ArrayVec`, `Vec` or slice as an iterator.
Code: used at src/pieces/goban.rs:306-319, 352-359, 407-410 and src/rules/game.rs:155-165. -/
def ofList (l : List α) : Listing α α := { rest := l, f := fun a => .ok (some a) }

/-- `Iterator::any`: `next` until an item satisfies `p`. A listing has no more items than its source, so `rest.length + 1` calls are
enough. Code: used at src/pieces/goban.rs:306-319, 352-359, 407-410 and src/rules/game.rs:155-165. -/
def anyFrom (p : β → Bool) : Nat → Listing α β → M Bool
  | 0, _ => .error .diverge
  | fuel + 1, it => do
    let (o, it) ← it.next
    match o with
    | none => .ok false
    | some b => if p b then .ok true else anyFrom p fuel it

/-- `Iterator::any`. Code: used at src/pieces/goban.rs:306-319, 352-359, 407-410 and src/rules/game.rs:155-165. -/
def any (it : Listing α β) (p : β → Bool) : M Bool := anyFrom p (it.rest.length + 1) it

end Listing

namespace Goban

/-- `chains()`: src/pieces/goban.rs:82-84, src/pieces/group.rs:225-227. -/
def chainsListing (g : Goban) : Listing (Option Group) Group := { rest := g.chains, f := fun e => .ok e }

/-- `get_connected_points`: src/pieces/goban.rs:306-311. The neighbours are computed when the iterator is made
(src/pieces/goban.rs:488-490), their colours when they are drawn. -/
def connectedPointsListing (dbg : Bool) (g : Goban) (c : Coord) : M (Listing Coord Point) := do
  let l ← g.neighborsCoords dbg c
  .ok { rest := l, f := fun p => do let col ← g.getColor p; .ok (some { coord := p, color := col }) }

/-- `get_connected_stones`: src/pieces/goban.rs:315-319. -/
def connectedStonesListing (dbg : Bool) (g : Goban) (c : Coord) : M (Listing Coord Stone) := do
  let it ← g.connectedPointsListing dbg c
  .ok (it.filterMap Point.toStone?)

/-- `get_stones`: src/pieces/goban.rs:352-359. -/
def stonesListing (g : Goban) : Listing (Option Nat × Nat) Stone :=
  { rest := g.board.zipIdx, f := fun (o, i) => match o with
      | none => .ok none
      | some k => do
        let c ← oneTo2dim g.size i
        let ch ← g.chains.chainAt k
        .ok (some { coord := c, color := ch.color }) }

/-- `get_empty_idx`: src/pieces/goban.rs:368-373. -/
def emptyIdxListing (g : Goban) : Listing (Option Nat × Nat) Nat :=
  { rest := g.board.zipIdx, f := fun (o, i) => .ok (o.map (fun _ => i)) }

/-- `get_empty_coords`: src/pieces/goban.rs:375-387. The slice is taken when the iterator is made. -/
def emptyCoordsListing (g : Goban) : M (Listing (Option Nat × Nat) Coord) := do
  let boardLength := g.size.1 * g.size.2
  assertM (decide (boardLength ≤ g.board.length))
  .ok { rest := (g.board.take boardLength).zipIdx, f := fun (o, i) => match o with
      | none => do let c ← oneTo2dim g.size i; .ok (some c)
      | some _ => .ok none }

/-- `get_coords_by_color`: src/pieces/goban.rs:391-403. The list is complete when the iterator is made. -/
def coordsByColorListing (dbg : Bool) (g : Goban) (color : MaybeColor) : M (Listing Coord Coord) := do
  let l ← g.getCoordsByColor dbg color
  .ok (.ofList l)

/-- `get_stones_by_color`: src/pieces/goban.rs:363-366. -/
def stonesByColorListing (dbg : Bool) (g : Goban) (color : MaybeColor) : M (Listing Coord Point) := do
  let it ← g.coordsByColorListing dbg color
  .ok (it.filterMap (fun c => some { coord := c, color := color }))

/-- `get_liberties`: src/pieces/goban.rs:407-410. -/
def libertiesListing (dbg : Bool) (g : Goban) (c : Coord) : M (Listing Coord Coord) := do
  let l ← g.neighborsCoords dbg c
  .ok ((Listing.ofList l).filter (fun x => do let col ← g.getColor x; .ok col.isNone))

end Goban

namespace Game

/-- `pseudo_legals`: src/rules/game.rs:134-136. -/
def pseudoLegalsListing (g : Game) : M (Listing (Option Nat × Nat) Coord) := g.goban.emptyCoordsListing

/-- `legals_by`: src/rules/game.rs:162-165. -/
def legalsByListing (dbg : Bool) (g : Game) (r : IllegalRules) : M (Listing (Option Nat × Nat) Coord) := do
  let it ← g.pseudoLegalsListing
  .ok (it.filter (fun c => do let e ← g.checkPointBy dbg c r; .ok e.isNone))

/-- `legals`: src/rules/game.rs:155-157. -/
def legalsListing (dbg : Bool) (g : Game) : M (Listing (Option Nat × Nat) Coord) := g.legalsByListing dbg g.rule.flagIllegal

end Game
end Model

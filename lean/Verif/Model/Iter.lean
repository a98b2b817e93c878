import Verif.Model.Goban
/-!
# The stone iterator, call by call (src/pieces/group.rs:236-271)
-/

namespace Model

/-- `struct CircularGroupIter`: src/pieces/group.rs:237-243. -/
structure CircularGroupIter where
  nextStone : List Nat
  origin : Nat
  next : Option Nat
  numStones : Nat

namespace CircularGroupIter

/-- `next`: src/pieces/group.rs:248-262, with the debug check of lines 256-259. Returns the item and the iterator afterwards. -/
def step (dbg : Bool) (it : CircularGroupIter) : M (Option Nat × CircularGroupIter) := do
  let ret := it.next
  let nx ← match it.next with
    | none => .ok none
    | some i =>
      match it.nextStone[i]? with
      | none => panic
      | some v => .ok (if v ≠ it.origin then some v else none)
  debugAssert dbg (!(ret.isSome && nx == ret))
  .ok (ret, { it with next := nx })

/-- `size_hint`: src/pieces/group.rs:264-266 (lower and upper bound are the same number); `ExactSizeIterator::len` returns it. -/
def sizeHint (it : CircularGroupIter) : Nat × Option Nat := (it.numStones, some it.numStones)

/-- `k` calls of `next`: the items and the iterator afterwards. Code: src/pieces/group.rs:245-262, src/pieces/goban.rs:86-94. -/
def steps (dbg : Bool) : Nat → CircularGroupIter → M (List (Option Nat) × CircularGroupIter)
  | 0, it => .ok ([], it)
  | k + 1, it => do
    let (o, it) ← it.step dbg
    let (os, it) ← steps dbg k it
    .ok (o :: os, it)

end CircularGroupIter

/-- `Group::iter`: src/pieces/group.rs:170-177. -/
def Group.circularIter (g : Group) (nextStone : List Nat) : CircularGroupIter :=
  { nextStone, origin := g.origin, next := some g.origin, numStones := g.numStones }

/-- The iterator `chain_stones` returns, `Map<CircularGroupIter, _>`: src/pieces/goban.rs:90-93. -/
structure ChainStones where
  inner : CircularGroupIter
  size : Size
  color : Color

namespace ChainStones

/-- `Map::next` with the closure of src/pieces/goban.rs:90-93. -/
def step (dbg : Bool) (it : ChainStones) : M (Option Stone × ChainStones) := do
  let (o, inner) ← it.inner.step dbg
  match o with
  | none => .ok (none, { it with inner })
  | some e => do
    let c ← oneTo2dim it.size e
    .ok (some { coord := c, color := it.color }, { it with inner })

/-- `Map::size_hint`: that of the inner iterator. Code: src/pieces/goban.rs:86-94, src/pieces/group.rs:264-266. -/
def sizeHint (it : ChainStones) : Nat × Option Nat := it.inner.sizeHint

/-- `k` calls of `next`: the items and the iterator afterwards. Code: src/pieces/group.rs:245-262, src/pieces/goban.rs:86-94. -/
def steps (dbg : Bool) : Nat → ChainStones → M (List (Option Stone) × ChainStones)
  | 0, it => .ok ([], it)
  | k + 1, it => do
    let (o, it) ← it.step dbg
    let (os, it) ← steps dbg k it
    .ok (o :: os, it)

end ChainStones

/-- `chain_stones` with a `usize`, before any call of `next`: src/pieces/goban.rs:86-94. -/
def Goban.chainStonesIter (g : Goban) (k : Nat) : M ChainStones := do
  let ch ← g.chains.chainAt k
  .ok { inner := ch.circularIter g.nextStone, size := g.size, color := ch.color }

end Model

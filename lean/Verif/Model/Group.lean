import Verif.Model.Bitset
/-!
# Groups and the circular stone list (src/pieces/group.rs:68-271)
-/

namespace Model

/-- `struct Group`: src/pieces/group.rs:69-75. `u16` fields are `Nat`. -/
structure Group where
  color : Color
  origin : Nat
  last : Nat
  liberties : Liberties
  numStones : Nat
  deriving DecidableEq, Repr

namespace Group

/-- `Group::new_with_liberties`: src/pieces/group.rs:83-91. -/
def newWithLiberties (color : Color) (stone : Nat) (liberties : Liberties) : Group :=
  { color, origin := u16 stone, last := u16 stone, liberties, numStones := 1 }

/-- `Group::new`: src/pieces/group.rs:79-81. -/
def new (color : Color) (stone : Nat) : Group := newWithLiberties color stone EMPTY_LIBERTIES

/-- `Group::is_dead`: src/pieces/group.rs:94-97. -/
def isDead (g : Group) : Bool := !Bits.any g.liberties

/-- `Group::number_of_liberties`: src/pieces/group.rs:100-103. -/
def numberOfLiberties (g : Group) : Nat := Bits.countOnes g.liberties

/-- `Group::is_atari`: src/pieces/group.rs:107-109. -/
def isAtari (g : Group) : Bool := g.numberOfLiberties == 1

/-- `Group::contains_liberty`: src/pieces/group.rs:112-115. -/
def containsLiberty (g : Group) (i : Nat) : M Bool := Bits.get i g.liberties

/-- `Group::remove_liberty`: src/pieces/group.rs:118-125. -/
def removeLiberty (dbg : Bool) (g : Group) (i : Nat) : M Group := do
  if dbg then
    let present ← Bits.get i g.liberties
    debugAssert dbg present
  let l ← Bits.set false i g.liberties
  .ok { g with liberties := l }

/-- `Group::add_liberty_unchecked`: src/pieces/group.rs:128-131. -/
def addLibertyUnchecked (g : Group) (i : Nat) : M Group := do
  let l ← Bits.set true i g.liberties
  .ok { g with liberties := l }

/-- `Group::add_liberty`: src/pieces/group.rs:134-142. -/
def addLiberty (dbg : Bool) (g : Group) (i : Nat) : M Group := do
  if dbg then
    let present ← Bits.get i g.liberties
    debugAssert dbg (!present)
  g.addLibertyUnchecked i

/-- `Group::add_liberties`: src/pieces/group.rs:145-150. -/
def addLiberties (dbg : Bool) (g : Group) (is : List Nat) : M Group :=
  is.foldlM (fun g i => g.addLiberty dbg i) g

/-- `Group::union_liberties`: src/pieces/group.rs:153-157. -/
def unionLiberties (g : Group) (l : Liberties) : Group := { g with liberties := Bits.merge g.liberties l }

/-- `Group::union_liberties_slice`: src/pieces/group.rs:159-164. -/
def unionLibertiesSlice (g : Group) (is : List Nat) : M Group :=
  is.foldlM (fun g i => g.addLibertyUnchecked i) g

/-- `Group::liberties`: src/pieces/group.rs:166-168. -/
def libertiesVec (g : Group) : List Nat := Bits.iterOnes g.liberties

/-- `CircularGroupIter::next` repeated until `None`: src/pieces/group.rs:245-262. `cur` is the index about to be
returned. `fuel` exhausted = the iterator never ends: with `fuel = next_stone.len() + 1` a walk that has not come back to
`origin` (or left the array) never will (`C66_iter_never_ends`). The debug check of lines 256-259 is included.
This is the whole walk, for consumers whose loop body cannot fail; `iterFold` runs the body at each stone. -/
def iterFrom (dbg : Bool) (nextStone : List Nat) (origin : Nat) : Nat → Nat → M (List Nat)
  | 0, _ => .error .diverge
  | fuel + 1, cur =>
    match nextStone[cur]? with
    | none => panic
    | some nx =>
      if nx = origin then .ok [cur]
      else if dbg && nx == cur then panic
      else do
        let rest ← iterFrom dbg nextStone origin fuel nx
        .ok (cur :: rest)

/-- `Group::iter(next_stone)` collected: src/pieces/group.rs:170-177. -/
def iter (dbg : Bool) (g : Group) (nextStone : List Nat) : M (List Nat) :=
  iterFrom dbg nextStone g.origin (nextStone.length + 1) g.origin

/-- The loop `for p in group.iter(next_stone) { body }`, stone by stone: `next` looks up the following stone
(src/pieces/group.rs:248-262), then the body runs. `fuel` as in `iterFrom`. `next_stone` is borrowed immutably by the iterator, so
the body cannot change it. -/
def iterFoldFrom {σ} (dbg : Bool) (nextStone : List Nat) (origin : Nat) (body : σ → Nat → M σ) : Nat → Nat → σ → M σ
  | 0, _, _ => .error .diverge
  | fuel + 1, cur, s =>
    match nextStone[cur]? with
    | none => panic
    | some nx =>
      if nx = origin then body s cur
      else if dbg && nx == cur then panic
      else do
        let s ← body s cur
        iterFoldFrom dbg nextStone origin body fuel nx s

/-- `for p in group.iter(next_stone) { body }`: src/pieces/goban.rs:458-468. -/
def iterFold {σ} (dbg : Bool) (g : Group) (nextStone : List Nat) (body : σ → Nat → M σ) (s : σ) : M σ :=
  iterFoldFrom dbg nextStone g.origin body (nextStone.length + 1) g.origin s

end Group

/-- `struct Groups(Vec<Option<Group>>)`: src/pieces/group.rs:181. -/
abbrev Groups := List (Option Group)

namespace Groups

/-- `Index`/`IndexMut for Groups`: src/pieces/group.rs:183-209 (out of range or `None` panics). -/
def chainAt (cs : Groups) (i : Nat) : M Group :=
  match cs[i]? with
  | some (some g) => .ok g
  | _ => panic

/-- `Groups::put_free_spot`: src/pieces/group.rs:216-219. -/
def putFreeSpot (cs : Groups) (g : Group) : Nat × Groups := (cs.length, cs ++ [some g])

/-- `Groups::remove`: src/pieces/group.rs:221-223. -/
def remove (cs : Groups) (i : Nat) : M Groups :=
  if i < cs.length then .ok (cs.set i none) else panic

/-- `Groups::iter`: src/pieces/group.rs:225-227. -/
def iter (cs : Groups) : List Group := cs.filterMap id

/-- `Groups::iter_with_index`: src/pieces/group.rs:229-234. -/
def iterWithIndex (cs : Groups) : List (Nat × Group) :=
  cs.zipIdx.filterMap (fun (e, i) => e.map (fun g => (i, g)))

end Groups
end Model

import Verif.Model.Goban
/-!
# Connected regions and territories (src/pieces/territory.rs)

`HashSet<Point>` is a duplicate-free list in insertion order. Where the code iterates over such a set, the iteration order
is a parameter `ord : List Point → List Point` (any permutation).
-/

namespace Model
namespace Goban

/-- `HashSet::insert`. Code: src/pieces/territory.rs:20, 29. -/
def insertP (p : Point) (l : List Point) : List Point := if l.contains p then l else l ++ [p]

/-- The `while let Some(..) = to_explore.pop()` loop: src/pieces/territory.rs:27-35. The stack is kept with its top
first, so `extend` prepends the reversed new points. `fuel` exhausted = the loop does not end
(`Props` proves this never happens on reachable boards). -/
def explore (dbg : Bool) (g : Goban) (color : MaybeColor) : Nat → List Point → List Point → M (List Point)
  | 0, _, _ => .error .diverge
  | _ + 1, explored, [] => .ok explored
  | fuel + 1, explored, s :: rest => do
    let explored := insertP s explored
    let ps ← g.connectedPoints dbg s.coord
    let new := ps.filter (fun p => decide (p.color = color) && !explored.contains p)
    explore dbg g color fuel explored (new.reverse ++ rest)

/-- Number of iterations allowed to `explore`. Code: src/pieces/territory.rs:27-35. -/
def exploreFuel : Nat := 4 * BOARD_MAX_LENGTH + 6

/-- `get_group_from_point`: src/pieces/territory.rs:18-37. -/
def groupFromPoint (dbg : Bool) (g : Goban) (stone : Point) : M (List Point) := do
  let ps ← g.connectedPoints dbg stone.coord
  let toExplore := ps.filter (fun p => decide (p.color = stone.color))
  explore dbg g stone.color exploreFuel (insertP stone []) toExplore.reverse

/-- `get_chains_from_stones`: src/pieces/territory.rs:45-58. -/
def chainsFromStones (dbg : Bool) (g : Goban) (stones : List Point) : M (List (List Point)) :=
  stones.foldlM (fun groups s => do
    if groups.any (fun set => set.contains s) then .ok groups
    else do
      let grp ← g.groupFromPoint dbg s
      .ok (groups ++ [grp])) []

/-- The double loop over one empty group: src/pieces/territory.rs:70-84. Returns `none` for `continue 'outer`
(both colours found), otherwise the pair `neutral` = (black found, white found). -/
def borderPoints : List Point → Bool × Bool → Option (Bool × Bool)
  | [], n => some n
  | p :: ps, n =>
    let n := if p.color = some .white then (n.1, true) else n
    let n := if p.color = some .black then (true, n.2) else n
    if n.1 && n.2 then none else borderPoints ps n

/-- src/pieces/territory.rs:71-84. -/
def border (dbg : Bool) (g : Goban) : List Point → Bool × Bool → M (Option (Bool × Bool))
  | [], n => .ok (some n)
  | e :: es, n => do
    let ps ← g.connectedPoints dbg e.coord
    match borderPoints ps n with
    | none => .ok none
    | some n => border dbg g es n

/-- One iteration of `'outer`: src/pieces/territory.rs:69-90. State: (black territory, white territory). -/
def territoryStep (dbg : Bool) (ord : List Point → List Point) (g : Goban)
    (acc : List Point × List Point) (grp : List Point) : M (List Point × List Point) := do
  match ← g.border dbg (ord grp) (false, false) with
  | none => .ok acc
  | some n =>
    if n.1 && !n.2 then .ok (acc.1 ++ ord grp, acc.2)
    else if !n.1 && n.2 then .ok (acc.1, acc.2 ++ ord grp)
    else .ok acc

/-- `get_territories`: src/pieces/territory.rs:61-92. -/
def territories (dbg : Bool) (ord : List Point → List Point) (g : Goban) : M (List Point × List Point) := do
  let es ← g.getEmptyCoords
  let groups ← g.chainsFromStones dbg (es.map (fun c => { coord := c, color := none }))
  groups.foldlM (g.territoryStep dbg ord) ([], [])

/-- `calculate_territories`: src/pieces/territory.rs:101-104. -/
def calculateTerritories (dbg : Bool) (ord : List Point → List Point) (g : Goban) : M (Nat × Nat) := do
  let t ← g.territories dbg ord
  .ok (t.1.length, t.2.length)

end Goban
end Model

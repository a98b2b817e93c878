import Verif.Model.Basic
/-!
# Coordinates (src/pieces/util.rs)
-/

namespace Model

/-- `type Coord = (u8, u8)`: src/pieces/util.rs:7. -/
abbrev Coord := Nat × Nat
/-- `type Size = (u8, u8)` = (height, width): src/pieces/util.rs:8. -/
abbrev Size := Nat × Nat

/-- `is_coord_valid`: src/pieces/util.rs:12-14. -/
def isCoordValid (size : Size) (c : Coord) : Bool := decide (c.1 < size.1) && decide (c.2 < size.2)

/-- `two_to_1dim`: src/pieces/util.rs:17-19 (u32 arithmetic of u8 values cannot overflow). -/
def twoTo1dim (size : Size) (p : Coord) : Nat := p.1 * size.1 + p.2

/-- `one_to_2dim` (and the macro `one2dim!`): src/pieces/util.rs:22-27, 30-37. Division by zero panics. -/
def oneTo2dim (size : Size) (index : Nat) : M Coord :=
  if size.1 = 0 ∨ size.2 = 0 then panic
  else .ok (u8 (index / size.1), u8 (index % size.2))

/-- `neighbor_coords`: src/pieces/util.rs:40-47. -/
def neighborCoords (dbg : Bool) (c : Coord) : M (List Coord) := do
  let d ← addU8 dbg c.1 1
  let r ← addU8 dbg c.2 1
  .ok [(d, c.2), (wsub1 c.1, c.2), (c.1, r), (c.1, wsub1 c.2)]

/-- `valid_coords`: src/pieces/util.rs:50-54. -/
def validCoords (dbg : Bool) (c : Coord) (size : Size) : M (List Coord) := do
  let l ← neighborCoords dbg c
  .ok (l.filter (isCoordValid size))

/-- `corner_points`: src/pieces/util.rs:57-64. -/
def cornerPoints (dbg : Bool) (c : Coord) : M (List Coord) := do
  let d ← addU8 dbg c.1 1
  let r ← addU8 dbg c.2 1
  .ok [(d, r), (wsub1 c.1, wsub1 c.2), (d, wsub1 c.2), (wsub1 c.1, r)]

end Model

import Verif.Spec.Observe
/-!
# Boards and games of every size, with any coordinates

No assumption is made on the two sides or on the coordinates: the index `x * height + y` of a pair need not be that of a point of
the board, two points may share a cell, and the cell may be one that no point has. Only the cell has to be empty.
-/

namespace Model

/-- Boards of size `s` built with `Goban::new`, `push` on empty cells and `remove_chain` of live groups. The index counts the stones
pushed. -/
inductive AnyBoard (dbg : Bool) (s : Size) : Nat → Goban → Prop
  | new {b} : Goban.new s = .ok b → AnyBoard dbg s 0 b
  | push {m b p c b'} : AnyBoard dbg s m b → b.getColor p = .ok none → b.push dbg p c = .ok b' → AnyBoard dbg s (m + 1) b'
  | remove {m b k b'} : AnyBoard dbg s m b → b.Live k → b.removeChain dbg k = .ok b' → AnyBoard dbg s m b'

/-- Games on a board of size `s`: `Game::new`, `play` on empty cells, passes, resignations, `resume`, `set_komi`; stones put on empty
cells without a move, and fields set to any value, which is what `put_handicap` and the builder are made of (`C98_handicap`,
`C98_builder`). The indices count the black and the white stones put. -/
inductive AnyGame (dbg : Bool) (s : Size) : Nat → Nat → Game → Prop
  | new {size rule g} : GobanSizes.toSize size = s → Game.new size rule = .ok g → AnyGame dbg s 0 0 g
  | play {b w g x y g'} : AnyGame dbg s b w g → g.goban.getColor (x, y) = .ok none → g.play dbg (.play x y) = .ok g' →
      AnyGame dbg s (b + if g.turn = .black then 1 else 0) (w + if g.turn = .white then 1 else 0) g'
  | pass {b w g g'} : AnyGame dbg s b w g → g.play dbg .pass = .ok g' → AnyGame dbg s b w g'
  | resign {b w g c g'} : AnyGame dbg s b w g → g.play dbg (.resign c) = .ok g' → AnyGame dbg s b w g'
  | resume {b w g} : AnyGame dbg s b w g → AnyGame dbg s b w g.resume
  | setKomi {b w g k} : AnyGame dbg s b w g → AnyGame dbg s b w (g.setKomi k)
  | stone {b w g p c bd} : AnyGame dbg s b w g → g.goban.getColor p = .ok none → g.goban.push dbg p c = .ok bd →
      AnyGame dbg s (b + if c = .black then 1 else 0) (w + if c = .white then 1 else 0) { g with goban := bd }
  | told {b w g o t r k} : AnyGame dbg s b w g →
      AnyGame dbg s b w { g with outcome := o, turn := t, rule := r, handicap := k }

/-- `to_vec` returns `v`, a table of 361 cells. -/
def Goban.Cells (b : Goban) (v : List MaybeColor) : Prop := b.toVec = .ok v ∧ v.length = 361

/-- The groups share out the occupied cells: `L k` are the cells of group `k`. A live group has at least one cell, all its cells show
its colour, `num_stones` is their number and `chain_stones` lists them (with index `i` shown as `(i / height, i mod width)`); every
occupied cell is in exactly one group. -/
structure Goban.Groups (dbg : Bool) (b : Goban) (v : List MaybeColor) (L : Nat → List Nat) : Prop where
  dead : ∀ k, ¬ b.Live k → L k = []
  live : ∀ k grp, b.chains.chainAt k = .ok grp → L k ≠ [] ∧ (L k).Nodup ∧ grp.numStones = (L k).length ∧
    (∀ i ∈ L k, v[i]? = some (some grp.color)) ∧
    b.chainStonesIdx dbg k = .ok ((L k).map (fun i => { coord := (i / b.size.1 % 256, i % b.size.2 % 256), color := grp.color }))
  every : ∀ (i : Nat) c, v[i]? = some (some c) → ∃ k, i ∈ L k
  once : ∀ i k j, i ∈ L k → i ∈ L j → k = j

end Model

namespace Spec
open Model

/-- What a stone of colour `c` put on cell `p` may do to the cells: it is put there, and some cells become empty — stones of the
opponent, or else, only where suicide is allowed, also the stone itself. -/
structure Put (suicide : Bool) (v v' : List MaybeColor) (p : Nat) (c : Color) : Prop where
  empty : v[p]? = some none
  only : ∀ i, i < v.length → v'[i]? = some none ∨ v'[i]? = (v.set p (some c))[i]?
  own : v'[p]? = some (some c) → ∀ i : Nat, v[i]? = some (some c) → v'[i]? = some (some c)
  self : v'[p]? = some none → suicide = true

end Spec

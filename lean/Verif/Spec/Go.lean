import Verif.Model.Basic
/-!
# The rules of Go, stated on positions only

Nothing here mentions groups, indices, bitsets or any other data structure of the code. The only thing shared with the
model is the two-element type of colours.
-/

/-- The size of a board: number of rows and of columns. A number `n` stands for the square board with `n` rows. -/
structure Dim where
  /-- rows -/
  h : Nat
  /-- columns -/
  w : Nat
  deriving DecidableEq, Repr

instance : Coe Nat Dim := ⟨fun n => ⟨n, n⟩⟩
instance (n : Nat) : OfNat Dim n := ⟨⟨n, n⟩⟩

/-- Number of points. -/
def Dim.area (n : Dim) : Nat := n.h * n.w

/-- As a pair (rows, columns). -/
def Dim.sz (n : Dim) : Nat × Nat := (n.h, n.w)

/-- The number of columns divides the number of rows. (Square boards are among these. On other boards the crate mixes up
points, see C26.) -/
def Dim.Fits (n : Dim) : Prop := n.w ∣ n.h

instance (n : Dim) : Decidable n.Fits := inferInstanceAs (Decidable (n.w ∣ n.h))

namespace Spec
open Model (Color)

/-- A point: (row, column). -/
abbrev Pt := Nat × Nat

/-- A position: the colour shown at each point, `none` for an empty point. -/
abbrev Pos := Pt → Option Color

/-- `p` is a point of the board. -/
def OnBoard (n : Dim) (p : Pt) : Prop := p.1 < n.h ∧ p.2 < n.w

instance (n : Dim) (p : Pt) : Decidable (OnBoard n p) := inferInstanceAs (Decidable (_ ∧ _))

/-- Orthogonal adjacency. -/
def Adj (p q : Pt) : Prop :=
  (p.1 = q.1 ∧ (p.2 + 1 = q.2 ∨ q.2 + 1 = p.2)) ∨ (p.2 = q.2 ∧ (p.1 + 1 = q.1 ∨ q.1 + 1 = p.1))

instance (p q : Pt) : Decidable (Adj p q) := inferInstanceAs (Decidable (_ ∨ _))

/-- `Linked n pos p q`: `q` can be reached from `p` through adjacent on-board points all showing the same thing
(the same colour, or all empty). For a stone this is "same group", for an empty point "same empty region". -/
inductive Linked (n : Dim) (pos : Pos) : Pt → Pt → Prop
  | refl (p : Pt) : Linked n pos p p
  | step {p q r : Pt} : Linked n pos p q → Adj q r → OnBoard n r → pos r = pos q → Linked n pos p r

/-- The group of `p` has a liberty: an empty on-board point next to one of its stones. -/
def HasLiberty (n : Dim) (pos : Pos) (p : Pt) : Prop :=
  ∃ q r, Linked n pos p q ∧ Adj q r ∧ OnBoard n r ∧ pos r = none

/-- Every stone on the board belongs to a group with a liberty. -/
def NoDead (n : Dim) (pos : Pos) : Prop :=
  ∀ p, OnBoard n p → pos p ≠ none → HasLiberty n pos p

/-- Put a stone of colour `c` on `p`. -/
def place (pos : Pos) (p : Pt) (c : Color) : Pos := fun q => if q = p then some c else pos q

open Classical in
/-- Remove every group of colour `c` that has no liberty (all groups at once). -/
noncomputable def removeDead (n : Dim) (pos : Pos) (c : Color) : Pos :=
  fun q => if pos q = some c ∧ ¬ HasLiberty n pos q then none else pos q

/-- The move of the rule book: put the stone, remove opposing groups without liberties, and then, when suicide is
allowed, own groups without liberties. -/
noncomputable def play (n : Dim) (suicideAllowed : Bool) (pos : Pos) (p : Pt) (c : Color) : Pos :=
  let after := removeDead n (place pos p c) c.opp
  if suicideAllowed then removeDead n after c else after

open Classical in
/-- The local form of `removeDead`: only groups next to `p` are looked at. -/
noncomputable def captureAround (n : Dim) (pos : Pos) (p : Pt) (c : Color) : Pos :=
  fun q => if pos q = some c ∧ ¬ HasLiberty n pos q ∧ (∃ r, Adj p r ∧ OnBoard n r ∧ pos r = some c ∧ Linked n pos r q)
    then none else pos q

open Classical in
/-- Remove the group of `p` if it has no liberty. -/
noncomputable def removeGroupIfDead (n : Dim) (pos : Pos) (p : Pt) : Pos :=
  fun q => if Linked n pos p q ∧ ¬ HasLiberty n pos p then none else pos q

/-- A move with captures looked for only around the played stone. On positions without dead groups this is `play`
(`Proofs.playLocal_eq_play`); on boards set up with dead groups elsewhere it leaves those alone. -/
noncomputable def playLocal (n : Dim) (suicideAllowed : Bool) (pos : Pos) (p : Pt) (c : Color) : Pos :=
  let after := captureAround n (place pos p c) p c.opp
  if suicideAllowed then removeGroupIfDead n after p else after

/-- Playing `c` on `p` would be suicide: after removing opposing dead groups the stone's own group has no liberty. -/
def Suicide (n : Dim) (pos : Pos) (p : Pt) (c : Color) : Prop :=
  ¬ HasLiberty n (removeDead n (place pos p c) c.opp) p

/-- All points of the board, row by row. -/
def points (n : Dim) : List Pt := (List.range n.h).flatMap (fun r => (List.range n.w).map (fun c => (r, c)))

/-- Number of points of the board showing `x`. -/
def count (n : Dim) (pos : Pos) (x : Option Color) : Nat := ((points n).filter (fun p => pos p = x)).length

/-- Two positions agree on the whole board. -/
def SameOn (n : Dim) (a b : Pos) : Prop := ∀ p, OnBoard n p → a p = b p

/-- The empty region of `p` touches a stone of colour `c`. -/
def Touches (n : Dim) (pos : Pos) (p : Pt) (c : Color) : Prop :=
  ∃ q r, Linked n pos p q ∧ Adj q r ∧ OnBoard n r ∧ pos r = some c

/-- `p` is territory of `c`: empty, and its empty region touches `c` and not the other colour. -/
def Territory (n : Dim) (pos : Pos) (c : Color) (p : Pt) : Prop :=
  OnBoard n p ∧ pos p = none ∧ Touches n pos p c ∧ ¬ Touches n pos p c.opp

open Classical in
/-- Number of points that are territory of `c`. -/
noncomputable def territorySize (n : Dim) (pos : Pos) (c : Color) : Nat :=
  ((points n).filter (fun p => decide (Territory n pos c p))).length

end Spec

import Verif.Spec.Game
/-!
# Coordinates as pairs of bytes

A coordinate is a pair of bytes, whether or not it is a point of the board. These definitions say what the queries take for the
neighbours and the corners of any such pair; they are not those of the board when the pair is not a point of it.
-/

namespace Spec
open Model

/-- Counting up a byte by one; 0 follows 255. -/
def Next (a b : Nat) : Prop := b = (a + 1) % 256

/-- One of the two coordinates is the same and the other is the next or the previous byte. -/
def Beside (p q : Pt) : Prop :=
  (p.2 = q.2 ∧ (Next p.1 q.1 ∨ Next q.1 p.1)) ∨ (p.1 = q.1 ∧ (Next p.2 q.2 ∨ Next q.2 p.2))

/-- The coordinate that the cell of `p` in the table is turned back into: row by division, column by remainder, as bytes. -/
def landsOn (n : Dim) (p : Pt) : Pt := (((p.1 * n.h + p.2) / n.h) % 256, (p.1 * n.h + p.2) % n.w)

/-- A step from `p` to the next byte would overflow, and the build checks for it. -/
def Overflows (dbg : Bool) (p : Pt) : Prop := dbg = true ∧ (p.1 = 255 ∨ p.2 = 255)

instance (p q : Pt) : Decidable (Beside p q) := by unfold Beside Next; infer_instance
instance (dbg : Bool) (p : Pt) : Decidable (Overflows dbg p) := by unfold Overflows; infer_instance

/-- The points of the board diagonally next to `p`, counting bytes. -/
def cornersFrom (n : Dim) (p : Pt) : List Pt :=
  [((p.1 + 1) % 256, (p.2 + 1) % 256), ((p.1 + 255) % 256, (p.2 + 255) % 256), ((p.1 + 1) % 256, (p.2 + 255) % 256),
    ((p.1 + 255) % 256, (p.2 + 1) % 256)].filter (fun q => decide (OnBoard n q))

/-- Number of these points that do not show a stone of `c`. -/
def openCorners (n : Dim) (pos : Pos) (c : Color) (p : Pt) : Nat :=
  ((cornersFrom n p).filter (fun q => pos q ≠ some c)).length

/-- The eye test of the crate, looking from any pair of bytes. -/
def EyeFrom (n : Dim) (pos : Pos) (c : Color) (p : Pt) : Prop :=
  (∀ q, OnBoard n q → Beside p q → pos q = some c) ∧
    (openCorners n pos c p = 0 ∨
      ((openCorners n pos c p = 1 ∨ openCorners n pos c p = 2) ∧
        Completes n pos c ((cornersFrom n p).filter (fun q => pos q = none))))

/-- The group of `q` has exactly one liberty. -/
def OneLiberty (n : Dim) (pos : Pos) (q : Pt) : Prop :=
  ∃ r, ∀ x, (OnBoard n x ∧ pos x = none ∧ ∃ q', Linked n pos q q' ∧ Adj q' x) ↔ x = r

/-- What `check_suicide` looks for: no empty neighbour of `p`, and next to the place `p` lands on neither a group of `c` with a number
of liberties other than one nor a group of the other colour with exactly one. -/
def SuicideFrom (n : Dim) (pos : Pos) (c : Color) (p : Pt) : Prop :=
  (∀ q, OnBoard n q → Beside p q → pos q ≠ none) ∧
  (∀ q, OnBoard n q → Beside (landsOn n p) q → (pos q = some c → OneLiberty n pos q) ∧ (pos q = some c.opp → ¬ OneLiberty n pos q))

end Spec

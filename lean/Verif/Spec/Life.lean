import Verif.Spec.Go
/-!
# Stones that cannot be captured, stated on positions only

The criterion of D. B. Benson ("Life in the game of Go", 1976): stones bordering two regions that the opponent cannot fill at the
same time.
-/

namespace Spec
open Model (Color)

/-- The region `R` gives a liberty to the group of `x` wherever it is not filled: each of its empty points is next to that group.
If stones in it may come off by suicide, each of its points. -/
def Vital (n : Dim) (pos : Pos) (suicideAllowed : Bool) (R : Pt → Prop) (x : Pt) : Prop :=
  ∀ q, R q → (pos q = none ∨ suicideAllowed = true) → ∃ s, Adj q s ∧ Linked n pos x s

/-- The stones `X` of colour `c` live by the regions `Rs`. -/
structure Lives (n : Dim) (pos : Pos) (c : Color) (suicideAllowed : Bool) (X : Pt → Prop) (Rs : (Pt → Prop) → Prop) : Prop where
  /-- they are stones of `c` on the board -/
  stones : ∀ x, X x → OnBoard n x ∧ pos x = some c
  /-- a region has empty points and opposing stones only -/
  inside : ∀ R, Rs R → ∀ q, R q → OnBoard n q ∧ pos q ≠ some c
  /-- around a region there are only stones of `X` -/
  border : ∀ R, Rs R → ∀ q, R q → ∀ r, Adj q r → OnBoard n r → R r ∨ X r
  /-- two regions without a common point are vital to each stone -/
  two : ∀ x, X x → ∃ R R', Rs R ∧ Rs R' ∧ (∃ q, R q) ∧ (∃ q, R' q) ∧ (∀ q, R q → ¬ R' q) ∧
    Vital n pos suicideAllowed R x ∧ Vital n pos suicideAllowed R' x

/-- `x` is among stones of `c` that live by Benson's criterion, under rules that forbid suicide. -/
def Living (n : Dim) (pos : Pos) (c : Color) (x : Pt) : Prop := ∃ X Rs, Lives n pos c false X Rs ∧ X x

/-- The same under rules that allow suicide. -/
def LivingFree (n : Dim) (pos : Pos) (c : Color) (x : Pt) : Prop := ∃ X Rs, Lives n pos c true X Rs ∧ X x

/-- `p` is an eye of the group of `s`: an empty point whose neighbours are all stones of that group. -/
def EyeOf (n : Dim) (pos : Pos) (s p : Pt) : Prop :=
  OnBoard n p ∧ pos p = none ∧ ∀ q, Adj p q → OnBoard n q → Linked n pos s q

/-- `s` is a stone of `c` whose group has the two eyes `p` and `q`. -/
def TwoEyes (n : Dim) (pos : Pos) (c : Color) (s p q : Pt) : Prop :=
  OnBoard n s ∧ pos s = some c ∧ p ≠ q ∧ EyeOf n pos s p ∧ EyeOf n pos s q

/-- An eye with its diagonal points: those on the board are stones of the group too. -/
def FullEyeOf (n : Dim) (pos : Pos) (s p : Pt) : Prop :=
  EyeOf n pos s p ∧ ∀ q, OnBoard n q → (q.1 + 1 = p.1 ∨ p.1 + 1 = q.1) → (q.2 + 1 = p.2 ∨ p.2 + 1 = q.2) → Linked n pos s q

/-- The points that are sure to count for stones `X` living by `Rs`: the stones, and the regions of one point next to one of them. -/
def Secure (X : Pt → Prop) (Rs : (Pt → Prop) → Prop) (p : Pt) : Prop :=
  X p ∨ (Rs (· = p) ∧ ∃ x, Adj p x ∧ X x)

end Spec

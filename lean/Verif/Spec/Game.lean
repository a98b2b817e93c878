import Verif.Spec.Go
/-!
# An abstract game of Go

A game state made of positions only, and the effect of a call. It is written from the rules and from the documentation of
the crate; it knows nothing of groups, liberties, hashes or ko points.
-/

namespace Spec
open Model (Color)

/-- What a player may ask for (`komi` stands for a change of komi, which the abstract game ignores). -/
inductive Call where
  | play (p : Pt)
  | pass
  | resign (c : Color)
  | resume
  | komi
  deriving DecidableEq, Repr

/-- What the call answers. -/
inductive Answer where
  | ok
  | paused
  | occupied
  | suicide
  | ko
  | fillEye
  deriving DecidableEq, Repr

/-- The things a rule set can forbid. -/
structure Forbidden where
  ko : Bool
  superko : Bool
  suicide : Bool
  fillEye : Bool
  deriving DecidableEq, Repr

/-- State of the abstract game. -/
structure State where
  /-- the stones -/
  pos : Pos
  /-- who moves -/
  turn : Color
  /-- passes since the last stone -/
  passes : Nat
  /-- (white stones removed, black stones removed) -/
  prisoners : Nat × Nat
  /-- the player named by the last resignation -/
  resigned : Option Color
  /-- the position from which the last stone was played, forgotten when somebody passes -/
  before : Option Pos
  /-- all positions from which a stone was played, oldest first -/
  played : List Pos

/-- A game that starts from the position `pos`. -/
def State.start (pos : Pos) (turn : Color) : State :=
  { pos, turn, passes := 0, prisoners := (0, 0), resigned := none, before := none, played := [] }

/-- The number of stones of colour `x` that are there in `a` and gone in `b`. -/
def vanished (n : Dim) (a b : Pos) (x : Color) : Nat :=
  ((points n).filter (fun q => a q = some x ∧ b q = none)).length

/-- The immediate recapture rule: playing `p` would restore the position from which the previous stone was played. -/
def Ko (n : Dim) (suicideAllowed : Bool) (s : State) (p : Pt) : Prop :=
  ∃ b, s.before = some b ∧ SameOn n (play n suicideAllowed s.pos p s.turn) b

/-- Positional super-ko: playing `p` would restore a position from which some earlier stone was played. -/
def SuperKo (n : Dim) (suicideAllowed : Bool) (s : State) (p : Pt) : Prop :=
  ∃ b ∈ s.played, SameOn n (play n suicideAllowed s.pos p s.turn) b

open Classical in
/-- The positions of a list in order of first occurrence, without repetition. -/
noncomputable def firsts (n : Dim) (l : List Pos) : List Pos :=
  l.foldl (fun acc p => if ∃ q ∈ acc, SameOn n q p then acc else acc ++ [p]) []

/-- Playing `c` on `p` removes an opposing stone. -/
def Captures (n : Dim) (pos : Pos) (p : Pt) (c : Color) : Prop :=
  ∃ q, OnBoard n q ∧ pos q = some c.opp ∧ removeDead n (place pos p c) c.opp q = none

/-- The part of super-ko the crate looks for (`C15`): only capturing plays, and only when three different positions have
been played from. -/
def SuperKoSeen (n : Dim) (suicideAllowed : Bool) (s : State) (p : Pt) : Prop :=
  3 ≤ (firsts n s.played).length ∧ Captures n s.pos p s.turn ∧ SuperKo n suicideAllowed s p

/-- The four diagonal points of `p`; `none` when the point would have a negative coordinate. -/
def diagonals (p : Pt) : List (Option Pt) :=
  [some (p.1 + 1, p.2 + 1),
   if 1 ≤ p.1 ∧ 1 ≤ p.2 then some (p.1 - 1, p.2 - 1) else none,
   if 1 ≤ p.2 then some (p.1 + 1, p.2 - 1) else none,
   if 1 ≤ p.1 then some (p.1 - 1, p.2 + 1) else none]

/-- The on-board diagonal points. -/
def corners (n : Dim) (p : Pt) : List Pt := ((diagonals p).filterMap id).filter (fun q => OnBoard n q)

/-- How many of the four diagonal points are off the board or show `c`. -/
def safeCorners (n : Dim) (pos : Pos) (c : Color) (p : Pt) : Nat :=
  (4 - (corners n p).length) + ((corners n p).filter (fun q => pos q = some c)).length

/-- `c` surrounds `p`. -/
def Surrounded (n : Dim) (pos : Pos) (c : Color) (p : Pt) : Prop := ∀ q, Adj p q → OnBoard n q → pos q = some c

/-- Some point of the list completes the eye: no opposing stone next to it and two or three safe corners; the search stops
at a point with an opposing neighbour. -/
def Completes (n : Dim) (pos : Pos) (c : Color) : List Pt → Prop
  | [] => False
  | q :: qs => (∀ r, Adj q r → OnBoard n r → pos r ≠ some c.opp) ∧
      (safeCorners n pos c q = 2 ∨ safeCorners n pos c q = 3 ∨ Completes n pos c qs)

/-- The eye shapes the crate recognises. -/
def Eye (n : Dim) (pos : Pos) (c : Color) (p : Pt) : Prop :=
  pos p = none ∧ Surrounded n pos c p ∧
    (safeCorners n pos c p = 4 ∨
      ((safeCorners n pos c p = 2 ∨ safeCorners n pos c p = 3) ∧
        Completes n pos c ((corners n p).filter (fun q => pos q = none))))

open Classical in
/-- The answer to a call. -/
noncomputable def answer (n : Dim) (r : Forbidden) (s : State) : Call → Answer
  | .resume => .ok
  | .komi => .ok
  | .pass => if s.passes = 2 then .paused else .ok
  | .resign _ => if s.passes = 2 then .paused else .ok
  | .play p =>
    if s.passes = 2 then .paused
    else if s.pos p ≠ none then .occupied
    else if r.suicide = true ∧ Suicide n s.pos p s.turn then .suicide
    else if r.ko = true ∧ Ko n (!r.suicide) s p then .ko
    else if r.fillEye = true ∧ Eye n s.pos s.turn p then .fillEye
    else if r.superko = true ∧ SuperKoSeen n (!r.suicide) s p then .ko
    else .ok

/-- The state after a call that was answered `ok`. -/
noncomputable def apply (n : Dim) (r : Forbidden) (s : State) : Call → State
  | .resume => { s with passes := 0 }
  | .komi => s
  | .pass => { s with turn := s.turn.opp, passes := s.passes + 1, before := none }
  | .resign c => { s with resigned := some c }
  | .play p =>
    let after := play n (!r.suicide) s.pos p s.turn
    let put := place s.pos p s.turn
    { pos := after, turn := s.turn.opp, passes := 0,
      prisoners := (s.prisoners.1 + vanished n put after .white, s.prisoners.2 + vanished n put after .black),
      resigned := s.resigned, before := some s.pos, played := s.played ++ [s.pos] }

/-- One call: the answer and the next state; a refused call changes nothing. -/
noncomputable def step (n : Dim) (r : Forbidden) (s : State) (c : Call) : Answer × State :=
  if answer n r s c = .ok then (.ok, apply n r s c) else (answer n r s c, s)

/-- A sequence of calls. -/
noncomputable def run (n : Dim) (r : Forbidden) : State → List Call → List Answer × State
  | s, [] => ([], s)
  | s, c :: cs => ((step n r s c).1 :: (run n r (step n r s c).2 cs).1, (run n r (step n r s c).2 cs).2)

/-! ### What the crate answers under every rule

Under a rule that forbids suicide or does not forbid ko, the crate's ko test is `Ko` and `answer` is what it answers. When
suicide is allowed and ko forbidden, the crate's test differs from `Ko` on suicidal plays; `KoSeen` is the test in terms of
positions and `answerSeen` the answers with it. -/

/-- The only liberty of the group of `q` is `p`. -/
def OnlyLiberty (n : Dim) (pos : Pos) (q p : Pt) : Prop :=
  ∀ r, OnBoard n r → pos r = none → (∃ q', Linked n pos q q' ∧ Adj q' r) → r = p

/-- The previous stone removed exactly one stone of the player to move, at `p`, and a group next to `p` whose only liberty is
`p` consists of a single stone. -/
def KoSeen (n : Dim) (s : State) (p : Pt) : Prop :=
  (∃ b, s.before = some b ∧ ∀ r, OnBoard n r → ((b r = some s.turn ∧ s.pos r = none) ↔ r = p)) ∧
  ∀ q, Adj p q → OnBoard n q → s.pos q ≠ none → OnlyLiberty n s.pos q p → ∀ t, Linked n s.pos q t → t = q

open Classical in
/-- As `answer`, with `KoSeen` for `Ko`. -/
noncomputable def answerSeen (n : Dim) (r : Forbidden) (s : State) : Call → Answer
  | .resume => .ok
  | .komi => .ok
  | .pass => if s.passes = 2 then .paused else .ok
  | .resign _ => if s.passes = 2 then .paused else .ok
  | .play p =>
    if s.passes = 2 then .paused
    else if s.pos p ≠ none then .occupied
    else if r.suicide = true ∧ Suicide n s.pos p s.turn then .suicide
    else if r.ko = true ∧ KoSeen n s p then .ko
    else if r.fillEye = true ∧ Eye n s.pos s.turn p then .fillEye
    else if r.superko = true ∧ SuperKoSeen n (!r.suicide) s p then .ko
    else .ok

/-- As `step`, with `answerSeen`. -/
noncomputable def stepSeen (n : Dim) (r : Forbidden) (s : State) (c : Call) : Answer × State :=
  if answerSeen n r s c = .ok then (.ok, apply n r s c) else (answerSeen n r s c, s)

/-- As `run`, with `answerSeen`. -/
noncomputable def runSeen (n : Dim) (r : Forbidden) : State → List Call → List Answer × State
  | s, [] => ([], s)
  | s, c :: cs => ((stepSeen n r s c).1 :: (runSeen n r (stepSeen n r s c).2 cs).1, (runSeen n r (stepSeen n r s c).2 cs).2)

end Spec

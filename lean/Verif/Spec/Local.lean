import Verif.Spec.Game
/-!
# The abstract game from every start

`Spec.Game` speaks of games whose groups all have liberties. A board can be set up with groups that have none, and `play`,
which asks nobody, can leave a group without liberties. The game below needs no such assumption: a stone removes the opposing
groups *next to it* that have no liberty left (and, when suicide is allowed, its own group), and nothing else on the board
changes. On positions without dead groups the two agree.
-/

namespace Spec
open Model (Color)

/-- Playing `c` on `p` is suicide: after the removals around the stone its group has no liberty. -/
def SuicideLocal (n : Dim) (pos : Pos) (p : Pt) (c : Color) : Prop := ¬ HasLiberty n (playLocal n false pos p c) p

/-- Playing `c` on `p` removes an opposing stone. -/
def CapturesLocal (n : Dim) (pos : Pos) (p : Pt) (c : Color) : Prop :=
  ∃ q, OnBoard n q ∧ pos q = some c.opp ∧ playLocal n false pos p c q = none

/-- The super-ko test of the crate: three different positions have been played from, the play captures, and it is refused as
an immediate recapture or leads to a position some stone was played from. -/
def SuperKoLocal (n : Dim) (s : State) (p : Pt) : Prop :=
  3 ≤ (firsts n s.played).length ∧ CapturesLocal n s.pos p s.turn ∧
    (KoSeen n s p ∨ ∃ b ∈ s.played, SameOn n (playLocal n false s.pos p s.turn) b)

open Classical in
/-- The answer to a play on an empty point, from the tests in their order. -/
noncomputable def pointLocal (n : Dim) (r : Forbidden) (s : State) (p : Pt) : Answer :=
  if r.suicide = true ∧ SuicideLocal n s.pos p s.turn then .suicide
  else if r.ko = true ∧ KoSeen n s p then .ko
  else if r.fillEye = true ∧ Eye n s.pos s.turn p then .fillEye
  else if r.superko = true ∧ SuperKoLocal n s p then .ko
  else .ok

/-- The answer to a call. -/
noncomputable def answerLocal (n : Dim) (r : Forbidden) (s : State) : Call → Answer
  | .resume => .ok
  | .komi => .ok
  | .pass => if s.passes = 2 then .paused else .ok
  | .resign _ => if s.passes = 2 then .paused else .ok
  | .play p => if s.passes = 2 then .paused else if s.pos p ≠ none then .occupied else pointLocal n r s p

/-- The state after a call that was carried out. -/
noncomputable def applyLocal (n : Dim) (r : Forbidden) (s : State) : Call → State
  | .resume => { s with passes := 0 }
  | .komi => s
  | .pass => { s with turn := s.turn.opp, passes := s.passes + 1, before := none }
  | .resign c => { s with resigned := some c }
  | .play p =>
    let after := playLocal n (!r.suicide) s.pos p s.turn
    let put := place s.pos p s.turn
    { pos := after, turn := s.turn.opp, passes := 0,
      prisoners := (s.prisoners.1 + vanished n put after .white, s.prisoners.2 + vanished n put after .black),
      resigned := s.resigned, before := some s.pos, played := s.played ++ [s.pos] }

/-- A call that is checked first, or one that is carried out without asking. -/
inductive LCall where
  | ask (c : Call)
  | force (c : Call)

/-- What the documentation asks of a call carried out without checks: stones go on empty points, and nobody passes a third
time. -/
def LCall.Proper (s : State) : LCall → Prop
  | .ask _ => True
  | .force (.play p) => s.pos p = none
  | .force .pass => s.passes < 2
  | .force _ => True

/-- One call: the answer and the next state; a refused call changes nothing. -/
noncomputable def stepLocal (n : Dim) (r : Forbidden) (s : State) : LCall → Answer × State
  | .ask c => if answerLocal n r s c = .ok then (.ok, applyLocal n r s c) else (answerLocal n r s c, s)
  | .force c => (.ok, applyLocal n r s c)

/-- A sequence of calls. -/
noncomputable def runLocal (n : Dim) (r : Forbidden) : State → List LCall → List Answer × State
  | s, [] => ([], s)
  | s, c :: cs => ((stepLocal n r s c).1 :: (runLocal n r (stepLocal n r s c).2 cs).1, (runLocal n r (stepLocal n r s c).2 cs).2)

/-- Every call of the sequence is proper when its turn comes. -/
def ProperRun (n : Dim) (r : Forbidden) : State → List LCall → Prop
  | _, [] => True
  | s, c :: cs => c.Proper s ∧ ProperRun n r (stepLocal n r s c).2 cs

end Spec

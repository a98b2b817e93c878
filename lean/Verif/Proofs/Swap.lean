import Verif.Proofs.Seen
/-!
# Exchanging the colours in the rules of Go
-/

namespace Model
open Spec (OnBoard Adj Linked HasLiberty NoDead place SameOn Pos Suicide State Forbidden Call Answer)

variable {n : Dim}

/-- The position with the colours exchanged. -/
def swapPos (pos : Pos) : Pos := fun p => swapC (pos p)

/-- The state with the colours exchanged. -/
def swapState (s : State) : State :=
  { pos := swapPos s.pos, turn := s.turn.opp, passes := s.passes, prisoners := (s.prisoners.2, s.prisoners.1),
    resigned := swapC s.resigned, before := s.before.map swapPos, played := s.played.map swapPos }

/-- The call with the colours exchanged. -/
def swapCall : Call → Call
  | .resign c => .resign c.opp
  | c => c

theorem swapC_inj {a b : Option Color} : swapC a = swapC b ↔ a = b := by
  cases a with
  | none => cases b <;> simp [swapC]
  | some a => cases b with
    | none => simp [swapC]
    | some b => cases a <;> cases b <;> simp [swapC, Color.opp]

theorem swapC_none {a : Option Color} : swapC a = none ↔ a = none := by cases a <;> simp [swapC]

theorem swapC_some {a : Option Color} {c : Color} : swapC a = some c.opp ↔ a = some c := by
  rw [show some c.opp = swapC (some c) from rfl, swapC_inj]

theorem swapC_swapC (a : Option Color) : swapC (swapC a) = a := by
  cases a with
  | none => rfl
  | some a => cases a <;> rfl

theorem swapPos_swapPos (pos : Pos) : swapPos (swapPos pos) = pos := funext fun _ => swapC_swapC _

theorem linked_swap_mp {pos : Pos} {p q : Coord} (h : Linked n pos p q) : Linked n (swapPos pos) p q := by
  induction h with
  | refl => exact .refl _
  | step _ ha hb hs ih => exact .step ih ha hb (by unfold swapPos; rw [hs])

theorem linked_swap {pos : Pos} {p q : Coord} : Linked n (swapPos pos) p q ↔ Linked n pos p q := by
  constructor
  · intro h
    have := linked_swap_mp h
    rwa [swapPos_swapPos] at this
  · exact linked_swap_mp

theorem hasLiberty_swap {pos : Pos} {p : Coord} : HasLiberty n (swapPos pos) p ↔ HasLiberty n pos p := by
  unfold HasLiberty
  simp only [linked_swap]
  simp only [swapPos, swapC_none]

theorem place_swap (pos : Pos) (p : Coord) (c : Color) : place (swapPos pos) p c.opp = swapPos (place pos p c) := by
  funext q
  unfold place swapPos
  dsimp only
  by_cases h : q = p
  · rw [if_pos h, if_pos h]; rfl
  · rw [if_neg h, if_neg h]

theorem removeDead_swap (pos : Pos) (c : Color) : Spec.removeDead n (swapPos pos) c.opp = swapPos (Spec.removeDead n pos c) := by
  funext q
  unfold Spec.removeDead
  rw [hasLiberty_swap]
  unfold swapPos
  dsimp only
  by_cases h : pos q = some c ∧ ¬ HasLiberty n pos q
  · rw [if_pos h, if_pos (by rw [swapC_some]; exact h)]; rfl
  · rw [if_neg h, if_neg (by rw [swapC_some]; exact h)]

theorem play_swap (sa : Bool) (pos : Pos) (p : Coord) (c : Color) :
    Spec.play n sa (swapPos pos) p c.opp = swapPos (Spec.play n sa pos p c) := by
  unfold Spec.play
  simp only [place_swap, removeDead_swap]
  cases sa <;> rfl

theorem suicide_swap {pos : Pos} {p : Coord} {c : Color} : Suicide n (swapPos pos) p c.opp ↔ Suicide n pos p c := by
  unfold Suicide
  rw [place_swap, removeDead_swap, hasLiberty_swap]

theorem sameOn_swap {a b : Pos} : SameOn n (swapPos a) (swapPos b) ↔ SameOn n a b := by
  unfold SameOn swapPos
  simp only [swapC_inj]

theorem captures_swap {pos : Pos} {p : Coord} {c : Color} : Spec.Captures n (swapPos pos) p c.opp ↔ Spec.Captures n pos p c := by
  unfold Spec.Captures
  rw [place_swap, removeDead_swap]
  simp only [swapPos, swapC_some, swapC_none]

theorem safeCorners_swap {pos : Pos} {p : Coord} {c : Color} :
    Spec.safeCorners n (swapPos pos) c.opp p = Spec.safeCorners n pos c p := by
  unfold Spec.safeCorners
  simp only [swapPos, swapC_some]

theorem completes_swap {pos : Pos} {c : Color} : ∀ (l : List Coord), Spec.Completes n (swapPos pos) c.opp l ↔ Spec.Completes n pos c l
  | [] => Iff.rfl
  | q :: l => by
    unfold Spec.Completes
    rw [safeCorners_swap, completes_swap l]
    simp only [swapPos, ne_eq, swapC_some]

theorem eye_swap {pos : Pos} {p : Coord} {c : Color} : Spec.Eye n (swapPos pos) c.opp p ↔ Spec.Eye n pos c p := by
  unfold Spec.Eye Spec.Surrounded
  rw [safeCorners_swap, completes_swap]
  simp only [swapPos, swapC_some, swapC_none]

theorem firsts_swap (l : List Pos) : Spec.firsts n (l.map swapPos) = (Spec.firsts n l).map swapPos := by
  suffices h : ∀ (l : List Pos), Spec.firsts n (l.reverse.map swapPos) = (Spec.firsts n l.reverse).map swapPos by
    have := h l.reverse
    rwa [List.reverse_reverse] at this
  intro l
  induction l with
  | nil => rfl
  | cons x l ih =>
    rw [List.reverse_cons, List.map_append, List.map_cons, List.map_nil, firsts_append, firsts_append, ih]
    have : (∃ q ∈ (Spec.firsts n l.reverse).map swapPos, SameOn n q (swapPos x)) ↔ ∃ q ∈ Spec.firsts n l.reverse, SameOn n q x := by
      simp only [List.mem_map]
      constructor
      · rintro ⟨_, ⟨q, hq, rfl⟩, h⟩; exact ⟨q, hq, sameOn_swap.1 h⟩
      · rintro ⟨q, hq, h⟩; exact ⟨_, ⟨q, hq, rfl⟩, sameOn_swap.2 h⟩
    by_cases h : ∃ q ∈ Spec.firsts n l.reverse, SameOn n q x
    · rw [if_pos h, if_pos (this.2 h)]
    · rw [if_neg h, if_neg (fun h' => h (this.1 h'))]; simp

theorem superKoSeen_swap {sa : Bool} {s : State} {p : Coord} : Spec.SuperKoSeen n sa (swapState s) p ↔ Spec.SuperKoSeen n sa s p := by
  unfold Spec.SuperKoSeen Spec.SuperKo
  show 3 ≤ (Spec.firsts n (s.played.map swapPos)).length ∧ Spec.Captures n (swapPos s.pos) p s.turn.opp ∧
    (∃ b ∈ s.played.map swapPos, SameOn n (Spec.play n sa (swapPos s.pos) p s.turn.opp) b) ↔ _
  rw [firsts_swap, List.length_map, captures_swap, play_swap]
  simp only [List.mem_map]
  apply and_congr_right; intro _
  apply and_congr_right; intro _
  constructor
  · rintro ⟨_, ⟨q, hq, rfl⟩, h⟩; exact ⟨q, hq, sameOn_swap.1 h⟩
  · rintro ⟨q, hq, h⟩; exact ⟨_, ⟨q, hq, rfl⟩, sameOn_swap.2 h⟩

theorem koSeen_swap {s : State} {p : Coord} : Spec.KoSeen n (swapState s) p ↔ Spec.KoSeen n s p := by
  unfold Spec.KoSeen Spec.OnlyLiberty
  show (∃ b, s.before.map swapPos = some b ∧ ∀ r, OnBoard n r → ((b r = some s.turn.opp ∧ swapPos s.pos r = none) ↔ r = p)) ∧
    (∀ q, Adj p q → OnBoard n q → swapPos s.pos q ≠ none → (∀ r, OnBoard n r → swapPos s.pos r = none →
      (∃ q', Linked n (swapPos s.pos) q q' ∧ Adj q' r) → r = p) → ∀ t, Linked n (swapPos s.pos) q t → t = q) ↔ _
  simp only [linked_swap]
  simp only [swapPos, swapC_none, ne_eq]
  apply and_congr
  · cases s.before with
    | none => simp
    | some b => simp [swapPos, swapC_some]
  · exact Iff.rfl

open Classical in
theorem answerSeen_swap {r : Forbidden} {s : State} {c : Call} :
    Spec.answerSeen n r (swapState s) (swapCall c) = Spec.answerSeen n r s c := by
  cases c with
  | resume => rfl
  | komi => rfl
  | pass => rfl
  | resign c => rfl
  | play p =>
    show (if s.passes = 2 then Answer.paused else if swapPos s.pos p ≠ none then .occupied
      else if r.suicide = true ∧ Suicide n (swapPos s.pos) p s.turn.opp then .suicide
      else if r.ko = true ∧ Spec.KoSeen n (swapState s) p then .ko
      else if r.fillEye = true ∧ Spec.Eye n (swapPos s.pos) s.turn.opp p then .fillEye
      else if r.superko = true ∧ Spec.SuperKoSeen n (!r.suicide) (swapState s) p then .ko else .ok) = _
    rw [suicide_swap, koSeen_swap, eye_swap, superKoSeen_swap]
    unfold Spec.answerSeen swapPos
    simp only [ne_eq, swapC_none]

theorem vanished_swap (a b : Pos) (x : Color) : Spec.vanished n (swapPos a) (swapPos b) x.opp = Spec.vanished n a b x := by
  unfold Spec.vanished
  simp only [swapPos, swapC_some, swapC_none]

theorem apply_swap {r : Forbidden} {s : State} {c : Call} :
    Spec.apply n r (swapState s) (swapCall c) = swapState (Spec.apply n r s c) := by
  cases c with
  | resume => rfl
  | komi => rfl
  | pass => rfl
  | resign c => rfl
  | play p =>
    unfold Spec.apply swapState swapCall
    dsimp only
    rw [play_swap, place_swap, show Color.white = Color.black.opp from rfl, vanished_swap,
      show Spec.vanished n (swapPos (place s.pos p s.turn)) (swapPos (Spec.play n (!r.suicide) s.pos p s.turn)) Color.black =
        Spec.vanished n (place s.pos p s.turn) (Spec.play n (!r.suicide) s.pos p s.turn) Color.white from vanished_swap _ _ .white]
    simp [Color.opp]

theorem stepSeen_swap {r : Forbidden} {s : State} {c : Call} : Spec.stepSeen n r (swapState s) (swapCall c) =
    ((Spec.stepSeen n r s c).1, swapState (Spec.stepSeen n r s c).2) := by
  unfold Spec.stepSeen
  rw [answerSeen_swap, apply_swap]
  split <;> rfl

/-- The abstract game with the colours exchanged. -/
theorem runSeen_swap {r : Forbidden} : ∀ (cs : List Call) (s : State), Spec.runSeen n r (swapState s) (cs.map swapCall) =
    ((Spec.runSeen n r s cs).1, swapState (Spec.runSeen n r s cs).2)
  | [], s => rfl
  | c :: cs, s => by
    rw [List.map_cons]
    unfold Spec.runSeen
    rw [stepSeen_swap]
    dsimp only
    rw [runSeen_swap cs]

theorem noDead_swap {pos : Pos} : NoDead n (swapPos pos) ↔ NoDead n pos := by
  unfold NoDead
  simp only [hasLiberty_swap]
  simp only [swapPos, ne_eq, swapC_none]

end Model

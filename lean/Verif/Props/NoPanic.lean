import Verif.Props.KomiAll
import Verif.Props.Limits
import Verif.Props.Flow
/-!
# C27: the other calls named there
-/

namespace Model
open Spec (OnBoard)

variable {dbg : Bool} {m n : Nat} {g : Game}

/-- **C27**, the queries: in every game reached by `play` on empty points, passes and accepted calls, on a square board, territories, scores,
equality and the result return, whatever the rule and however long the game; `legals` and `play` of a stone on an empty point do
if fewer than 65,535 stones have been put. Missing: longer games, for which `play` may panic (`C27_false`). -/
theorem C27_queries_partial (h : Reach dbg n m g) {ord : List Point → List Point} (hord : ∀ l, (ord l).Perm l) :
    (∃ t, g.goban.territories dbg ord = .ok t) ∧ (∃ t, g.goban.calculateTerritories dbg ord = .ok t) ∧
    (∀ f, ∃ s, g.calculateScoreBy dbg ord f = .ok s) ∧ (∃ o, g.getOutcome dbg ord = .ok o) ∧
    (∀ m' g', Reach dbg n m' g' → ∃ b, g.goban.beq g'.goban = .ok b) ∧
    (m < 65535 → (∀ f, ∃ l, g.legalsBy dbg f = .ok l) ∧
      ∀ x y, OnBoard n (x, y) → g.goban.getColor (x, y) = .ok none → ∃ g', g.play dbg (.play x y) = .ok g') := by
  have hsc : ∀ f, ∃ s, g.calculateScoreBy dbg ord f = .ok s := fun f => by
    obtain ⟨_, _, _, _, _, _, _, _, _, _, e⟩ := score_every (f := f) h hord
    exact ⟨_, e⟩
  refine ⟨?_, ⟨_, calculateTerritories_ok h.inv hord⟩, hsc, ?_, ?_, ?_⟩
  · obtain ⟨b, w, e, _⟩ := territories_ok (dbg := dbg) h.inv hord
    exact ⟨_, e⟩
  · obtain ⟨⟨b, w⟩, e⟩ := hsc g.rule.flagScore
    have e : g.calculateScore dbg ord = .ok (b, w) := e
    unfold Game.getOutcome
    rw [e]
    split
    · exact ⟨_, rfl⟩
    · split
      · exact ⟨_, rfl⟩
      · exact ⟨_, rfl⟩
  · intro m' g' h'
    obtain ⟨r, e, _⟩ := C07_eq h.spec.board h'.spec.board
    exact ⟨r, e⟩
  · intro hm
    refine ⟨fun f => ?_, fun x y hp he => ?_⟩
    · obtain ⟨l, e, _⟩ := (C17_legals_by h f).total (by omega)
      exact ⟨l, e⟩
    · obtain ⟨g', e, _⟩ := (C09_play_local h hp he).total (by omega)
      exact ⟨g', e⟩

/-- A game with a capture and two passes; the calls do return. -/
example : ∃ g, Legal true 3 6 g ∧ okAnd (do
      let l ← g.legals true
      let s ← g.calculateScore true id
      let o ← g.getOutcome true id
      .ok (l.length, s, o)) (fun r => decide (r.1 = 6)) = true :=
  mkGame_exists (rule := JAPANESE) (l := [.try_ (.play 0 1), .try_ (.play 0 0), .try_ (.play 1 0), .try_ (.play 2 2), .try_ .pass, .try_ .pass])
    (by decide) (by decide +kernel)

end Model

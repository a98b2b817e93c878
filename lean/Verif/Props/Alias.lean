import Verif.Props.Flow
import Verif.Props.Game
/-!
# Coordinates outside the board that stand for a point of it: C40
-/

namespace Model
open Spec (OnBoard Adj Linked HasLiberty NoDead place SameOn Pos)

variable {dbg : Bool} {n : Dim} {m : Nat} {g : Game}

theorem pushWthFeedback_alias {b : Goban} {p q : Coord} (c : Color) (h : twoTo1dim b.size p = twoTo1dim b.size q) :
    b.pushWthFeedback dbg p c = b.pushWthFeedback dbg q c := by
  unfold Goban.pushWthFeedback
  rw [h]

/-- **C40**, what `play` does with a coordinate whose index is that of a point of the board: it plays that point. Missing: the
property itself, which is false for these coordinates (below). -/
theorem C40_alias_play_partial (h : Reach dbg n m g) {x y : Nat} {p : Coord} (hi : x * n.h + y = p.1 * n.h + p.2) :
    g.play dbg (.play x y) = g.play dbg (.play p.1 p.2) ∧ g.goban.getColor (x, y) = g.goban.getColor p := by
  have hi' : twoTo1dim g.goban.size (x, y) = twoTo1dim g.goban.size p := by rw [h.inv.size]; exact hi
  constructor
  · unfold Game.play
    dsimp only
    rw [pushWthFeedback_alias g.turn hi']
  · unfold Goban.getColor
    rw [hi']

/-- On a square board the coordinates of `C40_alias_play_partial` are all those whose index is less than the number of points. -/
theorem C40_alias_square_partial {k x y : Nat} (h : x * k + y < k * k) :
    ∃ p, OnBoard (k : Dim) p ∧ x * (k : Dim).h + y = p.1 * (k : Dim).h + p.2 := by
  have hk : 0 < k := by
    rcases Nat.eq_zero_or_pos k with rfl | h'
    · simp at h
    · exact h'
  refine ⟨((x * k + y) / k, (x * k + y) % k), ⟨?_, Nat.mod_lt _ hk⟩, ?_⟩
  · exact Nat.div_lt_of_lt_mul h
  · show x * k + y = (x * k + y) / k * k + (x * k + y) % k
    rw [Nat.div_add_mod']

/-- The checks of `try_play` are not made for that point: White may not retake the ko at (1, 1), but may through (0, 5). -/
theorem C40_false_ko (dbg : Bool) : ∃ g g', Legal dbg 4 9 g ∧ g.rule = JAPANESE ∧ g.tryPlay dbg (.play 1 1) = .ok (some .ko, g) ∧
    ¬ OnBoard 4 (0, 5) ∧ g.tryPlay dbg (.play 0 5) = .ok (none, g') ∧
    g'.goban.getColor (1, 1) = .ok (some .white) ∧ g'.goban.getColor (1, 2) = .ok none := by
  have key : okAnd (mkGame dbg 4 JAPANESE exKo) (fun g => g.rule = JAPANESE ∧
      okAnd (g.tryPlay dbg (.play 1 1)) (fun r => r.1 = some .ko) ∧
      okAnd (g.tryPlay dbg (.play 0 5)) (fun r => r.1 = none ∧ r.2.goban.getColor (1, 1) = .ok (some .white) ∧
        r.2.goban.getColor (1, 2) = .ok none)) = true := by
    cases dbg <;> decide +kernel
  obtain ⟨g, hl, hg⟩ := mkGame_exists (by decide) key
  simp only [decide_eq_true_eq] at hg
  obtain ⟨h0, h1, h2⟩ := hg
  obtain ⟨⟨a, ga⟩, e1, h1⟩ := okAnd_iff.1 h1
  obtain ⟨⟨b, gb⟩, e2, h2⟩ := okAnd_iff.1 h2
  simp only [decide_eq_true_eq] at h1 h2
  obtain ⟨h2, h3, h4⟩ := h2
  subst h1 h2
  obtain rfl : ga = g := C13_refused_unchanged e1
  exact ⟨_, gb, hl, h0, e1, by decide, e2, h3, h4⟩

/-- The game of `C40_false_suicide`: Black stones around (1, 0) on a 3 × 3 board, White to move. -/
def exHole : List GOp := [.try_ (.play 0 0), .try_ .pass, .try_ (.play 1 1), .try_ .pass, .try_ (.play 2 0)]

/-- Nor for suicide: White may not play (1, 0), but may through (0, 3), and then a group without liberties stays on the
board. -/
theorem C40_false_suicide (dbg : Bool) : ∃ g g', Legal dbg 3 5 g ∧ g.rule = JAPANESE ∧
    g.tryPlay dbg (.play 1 0) = .ok (some .suicide, g) ∧ ¬ OnBoard 3 (0, 3) ∧ g.tryPlay dbg (.play 0 3) = .ok (none, g') ∧
    g'.goban.view (1, 0) = some .white ∧ ¬ NoDead 3 g'.goban.view := by
  have key : okAnd (mkGame dbg 3 JAPANESE exHole) (fun g => g.rule = JAPANESE ∧
      okAnd (g.tryPlay dbg (.play 1 0)) (fun r => r.1 = some .suicide) ∧
      okAnd (g.tryPlay dbg (.play 0 3)) (fun r => r.1 = none ∧ r.2.goban.view (1, 0) = some .white ∧
        r.2.goban.view (0, 0) = some .black ∧ r.2.goban.view (1, 1) = some .black ∧ r.2.goban.view (2, 0) = some .black)) = true := by
    cases dbg <;> decide +kernel
  obtain ⟨g, hl, hg⟩ := mkGame_exists (by decide) key
  simp only [decide_eq_true_eq] at hg
  obtain ⟨h0, h1, h2⟩ := hg
  obtain ⟨⟨a, ga⟩, e1, h1⟩ := okAnd_iff.1 h1
  obtain ⟨⟨b, gb⟩, e2, h2⟩ := okAnd_iff.1 h2
  simp only [decide_eq_true_eq] at h1 h2
  obtain ⟨h2, h3, h4, h5, h6⟩ := h2
  subst h1 h2
  obtain rfl : ga = g := C13_refused_unchanged e1
  refine ⟨_, gb, hl, h0, e1, by decide, e2, h3, ?_⟩
  intro hnd
  have hnb : ∀ r, Adj (1, 0) r → OnBoard 3 r → gb.goban.view r = some .black := by
    rintro ⟨a, b⟩ hadj ⟨ha, hb⟩
    change a < 3 at ha
    change b < 3 at hb
    have hr : (a, b) = (0, 0) ∨ (a, b) = (1, 1) ∨ (a, b) = (2, 0) := by
      unfold Adj at hadj
      dsimp only at hadj
      simp only [Prod.mk.injEq]
      omega
    rcases hr with hr | hr | hr <;> rw [hr] <;> assumption
  obtain ⟨q, r, hl', hadj, hr, he⟩ := hnd (1, 0) (by decide) (by rw [h3]; simp)
  have hq : q = (1, 0) := by
    clear hadj
    induction hl' with
    | refl => rfl
    | @step a b _ h2 hb hv ih =>
      rw [ih] at h2 hv
      rw [hnb b h2 hb, h3] at hv
      cases hv
  rw [hq] at hadj
  rw [hnb r hadj hr] at he
  cases he

end Model

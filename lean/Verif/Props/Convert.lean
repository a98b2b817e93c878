import Verif.Model.Convert
import Verif.Props.Rules
import Verif.Props.Board
/-!
# Indices in place of coordinates, defaults, small conversions: C71
-/

namespace Model
open Spec (OnBoard Adj)

variable {dbg : Bool} {n : Dim} {m : Nat} {g : Goban}

/-- **C71**. A query that takes a board index or a coordinate answers the same for a point and for its index: the colour there,
the neighbouring stones (of which `C32_connected_points` says which they are) and the neighbouring groups. -/
theorem C71_index (h : Board dbg n m g) {p : Coord} (hp : OnBoard n p) :
    g.getColorIdx (p.1 * n.h + p.2) = g.getColor p ∧ g.getColorIdx (p.1 * n.h + p.2) = .ok (g.view p) ∧
    g.connectedStonesIdx dbg (p.1 * n.h + p.2) = g.connectedStones dbg p ∧
    g.connectedGroupsIdx dbg (p.1 * n.h + p.2) = g.connectedGroupsIdxCoord dbg p := by
  have hI := h.inv.1
  have hi : twoTo1dim g.size p = p.1 * n.h + p.2 := by rw [hI.size]; rfl
  have hc := hI.getColor_view hp
  refine ⟨?_, ?_, ?_, ?_⟩
  · rw [← hi]; rfl
  · rw [← hi]; exact hc
  · unfold Goban.connectedStonesIdx
    have : oneTo2dim g.size (p.1 * n.h + p.2) = .ok p := by
      rw [← hi, hI.size]
      rw [oneTo2_ok hI.good (twoTo1_lt hI.good hp), ptOf_twoTo1 hI.good hp]
    rw [this, ok_bind]
  · rw [← hi]; rfl

/-- The distinct indices below the number of points of a square board are those of its points. -/
theorem C71_every_index {k i : Nat} (hi : i < k * k) : ∃ p, OnBoard (k : Dim) p ∧ p.1 * (k : Dim).h + p.2 = i := by
  have hk : 0 < k := by
    rcases Nat.eq_zero_or_pos k with rfl | h'
    · simp at hi
    · exact h'
  refine ⟨(i / k, i % k), ⟨Nat.div_lt_of_lt_mul hi, Nat.mod_lt _ hk⟩, ?_⟩
  show i / k * k + i % k = i
  rw [Nat.div_add_mod']

/-- **C71**. The default board is the empty board of 19 rows and columns; the default game, a new game of size nineteen under the
Chinese rule and what the builder makes without any setting are the same game. -/
theorem C71_defaults (dbg : Bool) : (∃ b, Goban.default = .ok b ∧ b.size = (19, 19) ∧
      (∀ p, OnBoard 19 p → b.getColor p = .ok none) ∧ b.numberOfStones = (0, 0)) ∧
    ∃ g, Game.default = .ok g ∧ Game.new .nineteen CHINESE = .ok g ∧ Game.builder.build dbg = .ok (g, Game.builder) ∧
      Blank 19 19 CHINESE g := by
  constructor
  · obtain ⟨b, h1, h2, h3, h4⟩ := goban_new_blank (h := 19) (w := 19) (by decide) (by decide)
    exact ⟨b, h1, h2, fun p hp => h3 p hp, h4⟩
  · obtain ⟨_, hx⟩ | ⟨_, g, e, hb⟩ := C53_new_partial .nineteen CHINESE (by decide) (by decide)
    · exact absurd (by decide) hx
    · refine ⟨g, e, e, ?_, hb⟩
      have : Game.builder.build dbg = (do let g ← Game.new .nineteen CHINESE; .ok (g, Game.builder)) := rfl
      rw [this, e]
      rfl

/-- **C71**. A colour is taken out of a cell exactly when there is one, a point becomes a stone exactly when it is not empty and
keeps its coordinate, a coordinate becomes the move on it, the names of the colours are `Black` and `White` and the opponent's opponent is the
player. -/
theorem C71_conversions :
    (∀ o : MaybeColor, (∀ c, Color.fromMaybe o = .ok c ↔ o = some c) ∧ (Color.fromMaybe o = panic ↔ o = none)) ∧
    (∀ (p : Point) (s : Stone), p.toStone? = some s ↔ p.color = some s.color ∧ p.coord = s.coord) ∧
    (∀ p : Point, p.toStone? = none ↔ p.color = none) ∧
    (∀ x y : Nat, Move.fromCoord (x, y) = .play x y) ∧
    (∀ (p : Coord) (c : Color), (Stone.fromPair (p, c)).toCoord = p ∧ (Stone.fromPair (p, c)).color = c) ∧
    (∀ a : Color, (a.display = "Black" ↔ a = .black) ∧ (a.display = "White" ↔ a = .white)) ∧ (∀ c : Color, c.opp.opp = c ∧ c.opp ≠ c) := by
  refine ⟨?_, ?_, ?_, fun _ _ => rfl, fun _ _ => ⟨rfl, rfl⟩, ?_, fun c => ⟨Color.opp_opp c, Color.opp_ne c⟩⟩
  · intro o
    cases o with
    | none => exact ⟨fun c => by simp [Color.fromMaybe, panic], by simp [Color.fromMaybe]⟩
    | some c => exact ⟨fun d => by simp [Color.fromMaybe], by simp [Color.fromMaybe, panic]⟩
  · rintro ⟨p, o⟩ ⟨q, c⟩
    cases o <;> simp [Point.toStone?, and_comm]
  · rintro ⟨p, o⟩
    cases o <;> simp [Point.toStone?]
  · intro a
    cases a <;> decide

/-- The hypotheses of `C71_index` on a rectangular board with stones. -/
example (dbg : Bool) : ∃ g, Board dbg ⟨4, 2⟩ 2 g ∧ (decide (g.getColor (3, 1) = .ok (some .black)) = true) :=
  mkBoard_exists (n := ⟨4, 2⟩) (l := [.push 3 1 .black, .push 2 1 .white]) (by cases dbg <;> decide +kernel)

end Model

import Verif.Props.Tables
import Verif.Props.Flow
import Verif.Props.Board
import Verif.Props.Builder
import Verif.Props.SuperKo
/-!
# Boards that are not square

The theorems about boards and games are stated for every size whose width divides its height (`Dim.Fits`; square boards are
among these) and, where the code lists the board through `get_empty_coords`, for square boards. This file shows that these two
conditions are exactly what the code needs, and gives games on boards that are not square.
-/

namespace Model
open Spec (OnBoard Adj)

/-! ## C26 -/

/-- The first stone, put at `p` of an empty board, has the adjacent point `q` among its recorded liberties. -/
def FirstStoneSees (dbg : Bool) (h w : Nat) (p q : Coord) : Prop :=
  ∃ b b' k grp, Goban.new (h, w) = .ok b ∧ b.push dbg p .black = .ok b' ∧ b'.boardAt (p.1 * h + p.2) = .ok (some k) ∧
    b'.chains.chainAt k = .ok grp ∧ q.1 * h + q.2 ∈ grp.libertiesVec

/-- A check for `FirstStoneSees`. -/
def firstStoneSees (dbg : Bool) (h w : Nat) (p q : Coord) : Bool := okAnd (do
    let b ← Goban.new (h, w)
    let b' ← b.push dbg p .black
    match ← b'.boardAt (p.1 * h + p.2) with
    | none => panic
    | some k => b'.chains.chainAt k) (fun grp => grp.libertiesVec.contains (q.1 * h + q.2))

theorem firstStoneSees_of {dbg : Bool} {h w : Nat} {p q : Coord} (hs : FirstStoneSees dbg h w p q) : firstStoneSees dbg h w p q = true := by
  obtain ⟨b, b', k, grp, e1, e2, e3, e4, e5⟩ := hs
  unfold firstStoneSees
  rw [e1, ok_bind, e2, ok_bind, e3, ok_bind]
  dsimp only
  rw [e4]
  exact List.contains_iff_mem.2 e5

/-- The stone to play and the liberty it misses, on a board whose width does not divide its height. -/
def strayStone (h w : Nat) : Coord × Coord := if w < h then ((1, 0), (0, 0)) else ((0, h), (0, h - 1))

def strayCheck (dbg : Bool) (h w : Nat) : Bool :=
  let pq := strayStone h w
  decide (w ∣ h) || (decide (OnBoard ⟨h, w⟩ pq.1) && decide (OnBoard ⟨h, w⟩ pq.2) && decide (Adj pq.1 pq.2) &&
    !firstStoneSees dbg h w pq.1 pq.2)

/-- Every size that `Goban::new` accepts (none is left out: both sides are at most 19). -/
theorem strayCheck_all (dbg : Bool) : ∀ h ∈ List.range 19, ∀ w ∈ List.range 19, strayCheck dbg (h + 1) (w + 1) = true := by
  cases dbg <;> decide +kernel

/-- **C26**, what it means for play: of all sizes accepted, the ones on which the very first stone gets all its liberties
recorded, wherever it is put, are those whose width divides their height. -/
theorem C26_first_stone_iff {dbg : Bool} {h w : Nat} (h1 : 1 ≤ h) (h2 : h ≤ 19) (w1 : 1 ≤ w) (w2 : w ≤ 19) :
    (∀ p q, OnBoard ⟨h, w⟩ p → OnBoard ⟨h, w⟩ q → Adj p q → FirstStoneSees dbg h w p q) ↔ w ∣ h := by
  constructor
  · intro hall
    have := strayCheck_all dbg (h - 1) (List.mem_range.2 (by omega)) (w - 1) (List.mem_range.2 (by omega))
    rw [Nat.sub_add_cancel h1, Nat.sub_add_cancel w1] at this
    unfold strayCheck at this
    simp only [Bool.or_eq_true, Bool.and_eq_true, decide_eq_true_eq] at this
    rcases this with hd | ⟨⟨⟨a, b⟩, c⟩, d⟩
    · exact hd
    · rw [firstStoneSees_of (hall _ _ a b c)] at d
      exact absurd d (by decide)
  · intro hd p q hp hq ha
    obtain ⟨b, e⟩ := (⟨hd, h2, w2⟩ : (⟨h, w⟩ : Dim).Good).new
    have hB : Board dbg ⟨h, w⟩ 0 b := .new hd e
    have hcol : ∀ r, OnBoard ⟨h, w⟩ r → b.getColor r = .ok none := fun r hr =>
      (getColor_none hB.inv.1 hr).2 (new_view (n := ⟨h, w⟩) hd e r hr)
    obtain ⟨b', e', hc, ho⟩ := C01_push (c := .black) hB (by decide) hp (hcol p hp)
    have hB' : Board dbg ⟨h, w⟩ 1 b' := .push hB hp (hcol p hp) e'
    have hI := hB'.inv.1
    rw [hI.getColor_view hp] at hc
    obtain ⟨k, grp, k1, k2, _⟩ := hI.view_some hp (Except.ok.inj hc)
    obtain ⟨l, hl⟩ := group_spec (dbg := dbg) hI k2
    obtain ⟨_, h3, _⟩ := C03_liberties hB' (live_ch.2 k2) hl.stones
    refine ⟨b, b', k, grp, e, e', ?_, live_ch.2 k2, (h3 _).2 ⟨q, hq, rfl, ?_, ?_⟩⟩
    · show b'.boardAt (twoTo1dim (Dim.sz ⟨h, w⟩) p) = _
      rw [Goban.boardAt_ok (by rw [hI.rep.blen]; exact hI.lt361 (twoTo1_lt hI.good hp)), k1]
    · rw [ho q hq (fun e => adj_irrefl (e ▸ ha)), hcol q hq]
    · obtain ⟨s, hs, rfl⟩ := List.mem_map.1 ((hl.mem p).2 ⟨hp, k1⟩)
      exact ⟨s, hs, ha⟩

/-- Both sides of the equivalence occur on boards that are not square. -/
example : 3 ∣ 6 ∧ ¬ 4 ∣ 6 ∧ firstStoneSees true 6 3 (1, 0) (0, 0) = true ∧ firstStoneSees true 6 4 (1, 0) (0, 0) = false := by
  decide +kernel

/-! ## C18 -/

/-- `get_empty_coords` is right on the empty board of this size. -/
def emptyCheck (h w : Nat) : Bool := okAnd (do
    let b ← Goban.new (h, w)
    b.getEmptyCoords) (fun l => l == Spec.points ⟨h, w⟩)

theorem emptyCheck_all : ∀ h ∈ List.range 19, ∀ w ∈ List.range 19, (emptyCheck (h + 1) (w + 1) == decide (h = w)) = true := by
  decide +kernel

/-- **C18**, why square boards: of all sizes accepted, the ones on which `get_empty_coords` lists the points of the empty board
are the square ones. On the other sizes `legals`, the territories, the scores and the play-outs work on a wrong list. -/
theorem C18_empty_coords_iff {h w : Nat} (h1 : 1 ≤ h) (h2 : h ≤ 19) (w1 : 1 ≤ w) (w2 : w ≤ 19) :
    (∃ b, Goban.new (h, w) = .ok b ∧ b.getEmptyCoords = .ok (Spec.points ⟨h, w⟩)) ↔ h = w := by
  have := emptyCheck_all (h - 1) (List.mem_range.2 (by omega)) (w - 1) (List.mem_range.2 (by omega))
  rw [Nat.sub_add_cancel h1, Nat.sub_add_cancel w1, beq_iff_eq] at this
  constructor
  · rintro ⟨b, e1, e2⟩
    have h3 : emptyCheck h w = true := by
      unfold emptyCheck
      rw [e1, ok_bind, e2]
      exact beq_self_eq_true _
    rw [h3] at this
    have := of_decide_eq_true this.symm
    omega
  · rintro rfl
    rw [decide_eq_true rfl] at this
    obtain ⟨l, e, hl⟩ := okAnd_iff.1 this
    obtain ⟨b, e1, e2⟩ := bind_eq_ok e
    exact ⟨b, e1, by rw [e2, eq_of_beq hl]⟩

/-- What is listed on the empty 4 × 2 board: the first two rows, twice. The other listing, `pseudo_legals_vec`, is right. -/
example : okAnd (Game.new (.custom 4 2) CHINESE) (fun g =>
    decide (g.pseudoLegals = .ok [(0, 0), (0, 1), (0, 0), (0, 1), (1, 0), (1, 1), (1, 0), (1, 1)]) &&
    decide (g.pseudoLegalsVec true = .ok (Spec.points ⟨4, 2⟩))) = true := by decide +kernel

/-! ## Boards and games that are not square: the hypotheses of the general theorems are met -/

/-- A board with a removed group (C01 to C08, C32, C34, C35, C37, C47). -/
example : ∃ g, Board true ⟨4, 2⟩ 8 g ∧ (okAnd (g.chainStonesIdx true 0) (fun l => l.length == 3) &&
    okAnd g.prettyString (fun l => l == "●○\n●○\n●┨\n┗┛\n".toList)) = true :=
  mkBoard_exists (n := ⟨4, 2⟩) (l := [.push 0 0 .black, .push 1 0 .black, .push 2 1 .white, .push 0 1 .white, .push 1 1 .white, .remove 2 1,
    .push 0 1 .white, .push 1 1 .white, .push 2 0 .black]) (by decide +kernel)

/-- Six moves and a pass on the 4 × 2 board; the last takes a stone, and the answer on the point of that stone is a ko. -/
def exNarrow : List GOp :=
  [.try_ (.play 3 0), .try_ (.play 0 0), .try_ (.play 2 1), .try_ (.play 1 1), .try_ .pass, .try_ (.play 2 0), .try_ (.play 1 0)]

/-- A game with a capture and a ko (C09 to C16, C24, C27, C28, C39, C41, C42, C44, C46, C52, C59). -/
example : ∃ g, Legal true ⟨4, 2⟩ 7 g ∧ (g.prisoners == (1, 0) && okAnd (g.tryPlay true (.play 2 0)) (fun r => decide (r.1 = some .ko)) &&
    okAnd (g.tryPlay true (.play 0 1)) (fun r => decide (r.1 = some .suicide))) = true :=
  mkGame_exists (n := ⟨4, 2⟩) (rule := JAPANESE) (l := exNarrow) (by decide) (by decide +kernel)

/-- The builder (C29), on the same board. -/
example : okAnd (((GameBuilder.default.setSize (4, 2)).add ⟨(3, 1), .white⟩).buildInner true)
    (fun g => decide (g.goban.getColor (3, 1) = .ok (some .white))) = true := by decide +kernel

/-- Super-ko (C58): a game on the 4 × 2 board, which has eight points. -/
example : ∃ g, Legal true ⟨4, 2⟩ 7 g ∧ (g.rule.flagIllegal.superko && g.rule.flagIllegal.suicide && decide (Dim.area ⟨4, 2⟩ ≤ 8) &&
    decide (3 ≤ g.history.length)) = true :=
  mkGame_exists (n := ⟨4, 2⟩) (rule := CHINESE) (l := exNarrow) (by decide) (by decide +kernel)

end Model
